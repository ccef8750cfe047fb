import Verif.Spec.Moveto
import Verif.Spec.Sample
import Verif.Lemmas.Eval
import Verif.Lemmas.Ops
import Verif.Props.Invariants
/-
C37: moveto.
-/
set_option autoImplicit false
namespace Nts
open Spec

/-! ### the target and the insertion -/

theorem movetoTag_spec (key : Str) : TagOf key (movetoTag key) := by
  have hs : ∀ n : Str, (startsWith c!"<" n = true ↔ c!"<" <+: n) := fun n => startsWith_iff
  have he : ∀ n : Str, (endsWith c!">" n = true ↔ c!">" <:+ n) := fun n => endsWith_iff
  unfold movetoTag
  dsimp only
  by_cases h1 : startsWith c!"<" key = true
  · rw [if_pos h1]
    obtain ⟨n, rfl⟩ := (hs key).1 h1
    by_cases h2 : endsWith c!">" (c!"<" ++ n) = true
    · rw [if_pos h2]
      obtain ⟨m, hm⟩ := (he _).1 h2
      cases m with
      | nil => simp at hm
      | cons a m =>
        simp only [List.cons_append, List.nil_append, List.cons.injEq] at hm
        obtain ⟨rfl, rfl⟩ := hm
        have : (c!"<" ++ (m ++ c!">")).dropLast = '<' :: m := by
          rw [← List.append_assoc, List.dropLast_concat]; rfl
        rw [this]
        exact TagOf.both
    · rw [if_neg h2]
      exact TagOf.opened (fun h => h2 ((he _).2 h))
  · rw [if_neg h1]
    have h1' := fun h => h1 ((hs key).2 h)
    by_cases h2 : endsWith c!">" ('<' :: key) = true
    · rw [if_pos h2]
      obtain ⟨m, hm⟩ := (he _).1 h2
      cases m with
      | nil => simp at hm
      | cons a m =>
        simp only [List.cons_append, List.cons.injEq] at hm
        obtain ⟨rfl, rfl⟩ := hm
        have : ('<' :: (m ++ c!">")).dropLast = '<' :: m := by
          rw [← List.cons_append, List.dropLast_concat]
        rw [this]
        refine TagOf.closed (fun h => h1' (h.trans (List.prefix_append _ _)))
    · rw [if_neg h2]
      exact TagOf.plain h1' (fun h => h2 ((he _).2 (h.trans (List.suffix_cons _ _))))

theorem tagOf_ne {a b : Str} (h : TagOf a b) : b ≠ [] := by cases h <;> simp

/-- One step of the final treatment. -/
theorem movetoInsert_spec (out key code : Str) : Inserted (movetoTag key) code out (movetoInsert out key code) := by
  have hne := tagOf_ne (movetoTag_spec key)
  unfold movetoInsert findTagPosition
  generalize movetoTag key = tag at hne
  cases hf : find tag out with
  | none => exact .missing ((find_eq_none hne).1 hf)
  | some p =>
    obtain ⟨⟨x, r, hx, hp⟩, hmin⟩ := (find_eq_some hne).1 hf
    subst hp
    have hfirst : FirstAt tag out x r := ⟨hx, hmin⟩
    have hdrop : out.drop x.length = tag ++ r := by rw [hx, List.append_assoc, List.drop_left]
    dsimp only
    by_cases hc : startsWith c!"</" tag = true
    · have hc' : c!"</" <+: tag := startsWith_iff.1 hc
      rw [hc]
      simp only [Bool.not_true, Bool.false_eq_true, if_false]
      rw [hdrop, show out.take x.length = x by rw [hx, List.append_assoc, List.take_left], ← List.append_assoc (x ++ code)]
      exact .closing hc' hfirst
    · have hc' : ¬ c!"</" <+: tag := fun h => hc (startsWith_iff.2 h)
      rw [Bool.not_eq_true] at hc
      rw [hc]
      simp only [Bool.not_false, if_true]
      rw [hdrop]
      cases hg : find c!">" (tag ++ r) with
      | none =>
        have := (find_eq_none (by decide)).1 hg
        exact .unended hc' hfirst (fun hm => this (by
          obtain ⟨u, v, e⟩ := List.append_of_mem hm
          exact ⟨u, v, by rw [e]; simp⟩))
      | some q =>
        obtain ⟨⟨m, b, hm, hq⟩, hmin2⟩ := (find_eq_some (by decide)).1 hg
        subst hq
        dsimp only
        have hout : out = x ++ m ++ c!">" ++ b := by rw [hx, List.append_assoc, hm]; simp
        have hlen : (x ++ m ++ c!">").length = x.length + m.length + 1 := by simp; omega
        rw [hout, ← hlen, List.take_left, List.drop_left]
        rw [← hout]
        refine .opening hc' hfirst hm (fun hmem => ?_)
        obtain ⟨u, v, e⟩ := List.append_of_mem hmem
        have := hmin2 u (v ++ c!">" ++ b) (by rw [hm, e]; simp)
        rw [e] at this
        simp at this
        omega

/-- The whole final treatment, given the pending codes. -/
theorem movetoOuter_spec (hash : Str → Str) (l : List (Str × Str)) : ∀ out : Str,
    ∃ out', movetoOuter (l.map (fun e => (hash (squeeze e.2), Value.obj [(e.1, .str e.2)]))) out = some out' ∧
      Moves l out out' := by
  induction l with
  | nil => exact fun out => ⟨out, rfl, .nil _⟩
  | cons e l ih =>
    intro out
    obtain ⟨to, code⟩ := e
    obtain ⟨out', h1, h2⟩ := ih (movetoInsert out to code)
    refine ⟨out', ?_, .cons (movetoTag_spec to) (movetoInsert_spec out to code) h2⟩
    simp only [List.map_cons, movetoOuter, movetoInner]
    cases hf : findTagPosition out (movetoTag to) with
    | none =>
      have : movetoInsert out to code = out := by simp [movetoInsert, hf]
      rw [this] at h1
      exact h1
    | some p => exact h1

/-! ### what is pending -/

theorem replGo_char (d : Char) (s : Str) : replGo [d] [] 0 s = s.filter (fun c => !(c == d)) := by
  induction s with
  | nil => rfl
  | cons c r ih =>
    simp only [replGo, List.length_singleton, Nat.sub_self, List.nil_append, ih, List.filter_cons]
    by_cases h : c = d
    · subst h; simp [stripPrefix?]
    · have : stripPrefix? [d] (c :: r) = none := by
        rw [stripPrefix?_eq_none]
        rintro ⟨t, ht⟩; injection ht with e; exact h e.symm
      simp [this, h]

theorem squeeze_eq (x : Str) : replaceAll c!" " [] (replaceAll c!"\n" [] x) = squeeze x := by
  unfold replaceAll
  rw [if_neg (by decide), if_neg (by decide), replGo_char, replGo_char, List.filter_filter]
  unfold squeeze
  congr 1
  funext c
  simp [Bool.and_comm, Bool.not_or]

/-- Operations on the pending codes are of this form. -/
def Spec.MoveOp (env : Env) : Op → Prop
  | .setMoveto h v => ∃ to code, h = env.md5 (squeeze code) ∧ v = .obj [(to, .str code)]
  | _ => True

theorem moveOp_of {env : Env} {n : Str} (hn : n ≠ c!"moveto") {o : Op} (h : Effects n o) : MoveOp env o := by
  cases o with
  | setMoveto a b => exact absurd h hn
  | _ => trivial

theorem moveOp_code {env : Env} {α : Type} {p : Prog α} (h : OpsIn (Effects c!"code") p) : OpsIn (MoveOp env) p :=
  OpsIn_mono (fun _ => moveOp_of (by decide)) h

theorem moveOp_body (env : Env) (name : Str) : OpsIn (MoveOp env) (bifBody env name) := by
  by_cases hn : name = c!"moveto"
  · subst hn
    change OpsIn (MoveOp env) (bifMoveto env)
    unfold bifMoveto
    refine OpsIn_bind (moveOp_code (eff_denyMods _)) fun _ => ?_
    refine OpsIn_bind (moveOp_code eff_outUncached) fun _ => ?_
    refine OpsIn_bind (moveOp_code (eff_extract _)) fun _ => ?_
    refine OpsIn_bind (moveOp_code eff_denyFlags) fun _ => ?_
    refine OpsIn_bind (moveOp_code (eff_parseCode _)) fun _ => ?_
    refine OpsIn_bind (moveOp_code eff_get) fun s => ?_
    exact ⟨⟨s.b.params, s.b.code, by rw [squeeze_eq], rfl⟩, fun _ => trivial⟩
  · exact OpsIn_mono (fun _ => moveOp_of hn) (effects env name)

theorem insert_remember (hash : Str → Str) (to code : Str) (l : List (Str × Str)) :
    Obj.insert (hash (squeeze code)) (.obj [(to, .str code)]) (l.map (fun e => (hash (squeeze e.2), Value.obj [(e.1, .str e.2)]))) =
      (remember hash to code l).map (fun e => (hash (squeeze e.2), Value.obj [(e.1, .str e.2)])) := by
  induction l with
  | nil => rfl
  | cons e l ih =>
    obtain ⟨t, c⟩ := e
    simp only [List.map_cons, Obj.insert, remember]
    by_cases h : hash (squeeze c) = hash (squeeze code)
    · rw [if_pos h, if_pos h, List.map_cons, h]
    · rw [if_neg h, if_neg h, List.map_cons, ih]

theorem remember_hashes (hash : Str → Str) (to code : Str) (l : List (Str × Str)) :
    (remember hash to code l).map (fun e => hash (squeeze e.2)) =
      if hash (squeeze code) ∈ l.map (fun e => hash (squeeze e.2)) then l.map (fun e => hash (squeeze e.2))
      else l.map (fun e => hash (squeeze e.2)) ++ [hash (squeeze code)] := by
  induction l with
  | nil => simp [remember]
  | cons e l ih =>
    obtain ⟨t, c⟩ := e
    simp only [remember]
    by_cases h : hash (squeeze c) = hash (squeeze code)
    · rw [if_pos h, if_pos (by simp [h])]
      simp [h]
    · rw [if_neg h, List.map_cons, ih]
      by_cases h2 : hash (squeeze code) ∈ l.map (fun e => hash (squeeze e.2))
      · rw [if_pos h2, if_pos (by simp only [List.map_cons]; exact List.mem_cons_of_mem _ h2)]
        rfl
      · rw [if_neg h2, if_neg (by
          simp only [List.map_cons, List.mem_cons, not_or]
          exact ⟨fun hh => h hh.symm, h2⟩)]
        rfl

theorem pending_remember {env : Env} {sh : Shared} {sc : Value} {l : List (Str × Str)} {to code : Str} (h : PendingIs env sh l)
    (hs : sh.schema.modIndex c!"__moveto" (fun d => d.setIndex (env.md5 (squeeze code)) (.obj [(to, .str code)])) = some sc) :
    PendingIs env { sh with schema := sc } (remember env.md5 to code l) := by
  obtain ⟨h1, h2⟩ := h
  constructor
  · have := index_modIndex_self hs
    rw [h1] at this
    simp only [Value.setIndex, Option.some.injEq] at this
    rw [← this, insert_remember]
  · rw [remember_hashes]
    split
    · exact h2
    · next hn => exact List.nodup_append.2 ⟨h2, by simp, fun a ha b hb => by
        rw [List.mem_singleton] at hb; subst hb; rintro rfl; exact hn ha⟩

/-- Pending codes stay pending codes. -/
def Spec.KeepsPending (env : Env) (a b : Shared) : Prop := (∃ l, PendingIs env a l) → ∃ l, PendingIs env b l

theorem keeps_same {env : Env} {a b : Shared} (h : b.schema.index c!"__moveto" = a.schema.index c!"__moveto") :
    KeepsPending env a b := by
  rintro ⟨l, h1, h2⟩
  exact ⟨l, h.trans h1, h2⟩

theorem keeps_steps (env : Env) : StepsE (MoveOp env) (KeepsPending env) where
  refl _ := id
  trans _ _ _ h1 h2 := h2 ∘ h1
  indir _ _ := keeps_same rfl
  unmatched _ _ := keeps_same rfl
  err _ _ _ := keeps_same (pushError_index (by decide))
  world _ _ := keeps_same rfl
  flags _ _ := keeps_same rfl
  status _ _ _ _ := keeps_same rfl
  exit _ _ _ := keeps_same rfl
  redirectJs _ _ := keeps_same rfl
  alreadyJs _ := keeps_same rfl
  data _ _ _ _ _ h := keeps_same (index_modIndex_ne h (by decide))
  moveto sh h v sc hop hs := by
    rintro ⟨l, hl⟩
    obtain ⟨to, code, rfl, rfl⟩ := hop
    exact ⟨_, pending_remember hl hs⟩

theorem keeps_closed (env : Env) : Closed (MoveOp env) (KeepsPending env) :=
  (keeps_steps env).closed (fun _ _ => keeps_same rfl)

theorem initShared_pending {env : Env} {filePath raw raw' : Str} {sh sh' : Shared} {inh : Inherit}
    (h : initShared env filePath raw sh = .ok (raw', sh', inh)) : PendingIs env sh' [] := by
  obtain ⟨s1, s2, h1, h2, h3⟩ := initShared_schema h
  refine ⟨?_, by simp⟩
  rw [index_modIndex_ne h3 (by decide), index_setIndex_ne h2 (by decide), index_setIndex_self h1]
  rfl

/-- **C37 (the output, partial).** Every render ends as follows: the codes that are pending, no two of them equal up to
spaces and newlines (for a hash without collisions), are inserted once each in the evaluated text, at their target or not
at all if there is no such target; nothing else is changed before the final replacements.  Missing: an opening tag is taken
to end at the first `>` and a tag is recognised by its first characters, see `C37_refuted`. -/
theorem C37_render_partial (env : Env) (n : Nat) (w : World) (t t' : Tpl) (hb : c!"{:" <:+: t.raw)
    (h : t.render env n w = .ok t') :
    ∃ l out out', Evaluated env n w t out t'.shared ∧ PendingIs env t'.shared l ∧ Moves l out out' ∧
      t'.out = finalOut t'.shared (replacements out') := by
  have hb' : contains bifOpen t.raw = true := (contains_iff (by decide)).2 hb
  unfold Tpl.render at h
  simp only [hb', Bool.not_true, Bool.false_eq_true, if_false] at h
  obtain ⟨sh, raw, sh1, inh, e1, e2, hk⟩ := renderWith_rel (keeps_closed env) env (moveOp_body env) h
  obtain ⟨l, hl⟩ := hk ⟨[], initShared_pending e2⟩
  unfold renderWith at h
  rw [e1] at h
  dsimp only at h
  rw [e2] at h
  dsimp only at h
  split at h
  · cases h
  · cases h
  next o2 sh2 inh2 hp =>
  split at h
  · cases h
  · cases h
  next out sh3 inh3 hc =>
  split at h
  · cases h
  next o he =>
  simp only [RRes.ok.injEq] at h
  subst h
  dsimp only at hl ⊢
  unfold endsRender at he
  obtain ⟨out', h1, h2⟩ := movetoOuter_spec env.md5 l out
  refine ⟨l, out, out', ⟨sh, raw, sh1, inh, o2, sh2, inh2, inh3, e1, e2, hp, hc⟩, hl, h2, ?_⟩
  unfold applyMoveto at he
  rw [hl.1] at he
  dsimp only at he
  rw [h1] at he
  exact (Option.some.inj he).symm

/-- **C37 (no duplicates).** Among the pending codes no two are equal up to spaces and newlines. -/
theorem C37_distinct (env : Env) (sh : Shared) (l : List (Str × Str)) (h : PendingIs env sh l) :
    (l.map (fun e => squeeze e.2)).Nodup := by
  have := h.2
  induction l with
  | nil => simp
  | cons e l ih =>
    simp only [List.map_cons, List.nodup_cons, List.mem_map, not_exists, not_and] at this ⊢
    refine ⟨fun x hx he => this.1 x hx (by rw [he]), ?_⟩
    have h2 := this.2
    clear ih h this
    induction l with
    | nil => simp
    | cons x l ih =>
      simp only [List.map_cons, List.nodup_cons, List.mem_map, not_exists, not_and] at h2 ⊢
      exact ⟨fun y hy he => h2.1 y hy (by rw [he]), ih h2.2⟩

theorem named_moveto : Named c!"moveto" := by
  refine ⟨by decide, ?_⟩
  intro c r hc
  injection hc with h1 h2
  subst h1
  decide

/-- **C37 (the BIF).** `{:moveto; to >> code :}` prints nothing (in a cache it prints itself, to be done again) and the
evaluated code becomes pending for the evaluated target; a pending code that is equal up to spaces and newlines is replaced
by it. -/
theorem C37_bif (env : Env) (R : Rec) (sh sh1 sh2 : Shared) (inh inh1 inh2 : Inherit) (mods src only code to x : Str)
    (p : Option Str) (l : List (Str × Str)) (hm : Mods mods) (hf : '&' ∉ mods) (hn : '!' ∉ mods) (hs : '+' ∉ mods)
    (hmax : sh.count < sh.max) (hsel : Selected inh mods c!"moveto" only) (hparts : Parts src p code)
    (hto : evalParams R (counted sh) (entered sh inh) c!"moveto" (p.getD []) only = .ok to sh1 inh1)
    (hflags : flagsOf sh1 (p.getD []) = [])
    (hcode : nested R false sh1 inh1 c!"moveto" code only = .ok x sh2 inh2) (hl : PendingIs env sh2 l) :
    ∃ sh3, runBif env R sh inh (bifText mods c!"moveto" src) only =
        finish (decide ('^' ∈ mods))
          (if inh.inCache then c!"{:!cache;" ++ bifText mods c!"moveto" src ++ c!":}" else []) sh3 inh2 ∧
      PendingIs env sh3 (remember env.md5 to x l) ∧ sh3 = { sh2 with schema := sh3.schema } ∧
      ∀ k, k ≠ c!"__moveto" → sh3.schema.index k = sh2.schema.index k := by
  obtain ⟨o, ho⟩ : ∃ o, sh2.schema = .obj o := by
    have := hl.1
    unfold Value.index Value.get? at this
    cases hsc : sh2.schema with
    | obj o => exact ⟨o, rfl⟩
    | _ => rw [hsc] at this; simp at this
  obtain ⟨sc, hsc⟩ : ∃ sc, sh2.schema.modIndex c!"__moveto"
      (fun d => d.setIndex (env.md5 (squeeze x)) (.obj [(to, .str x)])) = some sc := by
    have := hl.1
    rw [ho] at this ⊢
    simp only [Value.index, Value.get?] at this
    simp only [Value.modIndex, this, Value.setIndex, Option.map_some]
    exact ⟨_, rfl⟩
  refine ⟨{ sh2 with schema := sc }, ?_, pending_remember hl hsc, rfl, fun k hk => index_modIndex_ne hsc hk.symm⟩
  rw [runBif_text env R sh inh mods c!"moveto" src only hm named_moveto hmax hsel]
  have hbody : bifBody env c!"moveto" = bifMoveto env := rfl
  rw [hbody]
  unfold bifMoveto
  simp only [run_bind, run_denyMods]
  rw [if_neg (by simp [start, hf, hn, hs])]
  simp only [andThen_ok, outUncached, run_bind, run_getSt, run_setOut]
  rw [run_extract R hparts _ rfl rfl rfl rfl]
  change bifResult env (Res.andThen (match evalParams R (counted sh) (entered sh inh) c!"moveto" (p.getD []) only with
    | .ok x sh' inh' => _
    | .panic p => _
    | .oof => _) _) = _
  rw [hto]
  simp only [andThen_ok, run_denyFlags, hflags, List.isEmpty_nil, if_true]
  rw [run_parseCode_nested R _ _ rfl rfl]
  change bifResult env (Res.andThen (match nested R false sh1 inh1 c!"moveto" code only with
    | .ok x sh' inh' => _
    | .panic p => _
    | .oof => _) _) = _
  rw [hcode]
  simp only [andThen_ok, run_getSt, perform, run, step, squeeze_eq, hsc, Option.map_some, oresOpt]
  simp only [bifResult, bifFinish, finish, start]
  rfl

set_option maxRecDepth 10000 in
/-- The cases of `C37_render_partial` occur: a code moved once although given twice, to the beginning and to the end of a
tag, and a missing target. -/
example : Sample.outOf (Sample.go [(c!"x", .str c!"X")]
      c!"<b k>t</b>{:moveto; </b >> y{:;x:} :}{:moveto; b >> A :}{:moveto; </b> >> y {:;x:} :}{:moveto; <i >> z :}") =
    some (c!"<b k>Aty X</b>", c!"200") := by decide +kernel

set_option maxRecDepth 10000 in
/-- **C37 (refuted).** The code is not always right after the opening tag: a `>` in an attribute is taken for its end, and
`<b` is found in `<body>`. -/
theorem C37_refuted :
    Sample.outOf (Sample.go [] c!"<b k='>'>t</b>{:moveto; <b >> A :}") = some (c!"<b k='>A'>t</b>", c!"200") ∧
    Sample.outOf (Sample.go [] c!"<body><b>t</b>{:moveto; <b >> A :}") = some (c!"<body>A<b>t</b>", c!"200") := by
  constructor <;> decide +kernel

end Nts
