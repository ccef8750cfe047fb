import Verif.Model.Python
/-
C62, C63: objects written in Python.
-/
set_option autoImplicit false
namespace Nts.Py

/-- The threads of a system in which nothing has started yet. -/
def begin (I : Interp) (calls : List ObjCall) : Sys := ⟨I, calls.map Thread.new⟩

/-! ### one step -/

theorem setAttrs_other {I : Interp} {name n : Str} {f : Module → Module} (h : n ≠ name) :
    (setAttrs I name f).modules n = I.modules n := by
  simp [setAttrs, h]

theorem setAttrs_same {I : Interp} {name : Str} {f : Module → Module} :
    (setAttrs I name f).modules name = (I.modules name).map f := by
  simp [setAttrs]

theorem import_other {S : Scripts} {I I' : Interp} {name n : Str} (h : importModule S I name = .ok I') (hn : n ≠ name) :
    I'.modules n = I.modules n := by
  unfold importModule at h
  split at h
  · simp only [Except.ok.injEq] at h; rw [h]
  · split at h
    · simp at h
    · split at h
      · simp at h
      · simp only [Except.ok.injEq] at h
        rw [← h]
        simp [hn]

theorem import_path {S : Scripts} {I I' : Interp} {name : Str} (h : importModule S I name = .ok I') : I'.path = I.path := by
  unfold importModule at h
  split at h
  · simp only [Except.ok.injEq] at h; rw [h]
  · split at h
    · simp at h
    · split at h
      · simp at h
      · simp only [Except.ok.injEq] at h
        rw [← h]

/-- The imported module: the one that was there, or one made from the first file on the path. -/
theorem import_same {S : Scripts} {I I' : Interp} {name : Str} (h : importModule S I name = .ok I') :
    ∃ m, I'.modules name = some m ∧
      (I.modules name = some m ∨ (I.modules name = none ∧ ∃ d ∈ I.path, S.provides d name = some m.file)) := by
  unfold importModule at h
  split at h
  · next m hm =>
    simp only [Except.ok.injEq] at h
    exact ⟨m, by rw [← h]; exact hm, .inl hm⟩
  · next hm =>
    split at h
    · simp at h
    · next f hf =>
      split at h
      · simp at h
      · simp only [Except.ok.injEq] at h
        refine ⟨⟨f, none, none⟩, by rw [← h]; simp, .inr ⟨hm, ?_⟩⟩
        obtain ⟨d, hd, he⟩ := List.exists_of_findSome?_eq_some hf
        exact ⟨d, hd, he⟩

theorem tstep_args (S : Scripts) (I : Interp) (t : Thread) : (tstep S I t).2.args = t.args := by
  unfold tstep
  split <;> try rfl
  · split
    · rfl
    · split <;> rfl
  · split
    · rfl
    · split <;> rfl

/-- A step of a call touches only the module of its own name. -/
theorem tstep_other {S : Scripts} {I : Interp} {t : Thread} {n : Str} (h : S.stem t.args.file ≠ some n)
    (hs : t.pc ≠ .path → t.pc ≠ .load → t.pc ≠ .done → (S.stem t.args.file).isSome = true) :
    (tstep S I t).1.modules n = I.modules n := by
  have hn : t.pc ≠ .path → t.pc ≠ .load → t.pc ≠ .done → n ≠ (S.stem t.args.file).getD [] := by
    intro h1 h2 h3 he
    have := hs h1 h2 h3
    cases hst : S.stem t.args.file with
    | none => rw [hst] at this; simp at this
    | some x => rw [hst] at he h; simp at he; exact h (by rw [he])
  unfold tstep
  split
  · rfl
  · split
    · rfl
    · next name hname =>
      split
      · rfl
      · next I' hI' =>
        exact import_other hI' (fun he => h (by rw [hname, he]))
  · next hp => exact setAttrs_other (hn (by rw [hp]; decide) (by rw [hp]; decide) (by rw [hp]; decide))
  · next hp =>
    have := hn (by rw [hp]; decide) (by rw [hp]; decide) (by rw [hp]; decide)
    dsimp only
    split
    · exact setAttrs_other this
    · rfl
  · next hp => exact setAttrs_other (hn (by rw [hp]; decide) (by rw [hp]; decide) (by rw [hp]; decide))
  · next hp =>
    have := hn (by rw [hp]; decide) (by rw [hp]; decide) (by rw [hp]; decide)
    dsimp only
    split
    · exact setAttrs_other this
    · rfl
  · split
    · rfl
    · split <;> rfl
  · rfl

/-! ### C63: what a call sees -/

/-- What holds of a call at each position, when nobody else touches its module. -/
def Own (S : Scripts) (I : Interp) (t : Thread) : Prop :=
  (t.pc ≠ .path → t.pc ≠ .load → t.pc ≠ .done → (S.stem t.args.file).isSome = true) ∧
  (∀ name m, S.stem t.args.file = some name → I.modules name = some m →
    (t.pc = .setSchema → m.schema = none) ∧
    (t.pc = .delData → m.schema = t.args.schema) ∧
    (t.pc = .setData → m.schema = t.args.schema ∧ m.data = none) ∧
    (t.pc = .call → m.schema = t.args.schema ∧ m.data = t.args.schemaData)) ∧
  (∀ r, t.ran = some r → r.2 = (t.args.schema, t.args.schemaData))

theorem own_new (S : Scripts) (I : Interp) (c : ObjCall) : Own S I (Thread.new c) :=
  ⟨fun h => absurd rfl h, fun _ _ _ _ => ⟨(fun h => nomatch h), (fun h => nomatch h), (fun h => nomatch h), (fun h => nomatch h)⟩,
    (fun _ h => nomatch h)⟩

theorem own_fail {S : Scripts} {I I' : Interp} {t : Thread} {e : Str} (h : Own S I t) : Own S I' (t.fail e) :=
  ⟨fun _ _ h => absurd rfl h,
    fun _ _ _ _ => ⟨(fun h => nomatch h), (fun h => nomatch h), (fun h => nomatch h), (fun h => nomatch h)⟩, h.2.2⟩

theorem own_tstep {S : Scripts} {I : Interp} {t : Thread} (h : Own S I t) : Own S (tstep S I t).1 (tstep S I t).2 := by
  obtain ⟨h1, h2, h3⟩ := h
  unfold tstep
  split
  · refine ⟨fun _ h => absurd rfl h, fun _ _ _ _ => ⟨(fun h => nomatch h), (fun h => nomatch h), (fun h => nomatch h),
      (fun h => nomatch h)⟩, h3⟩
  · split
    · exact own_fail ⟨h1, h2, h3⟩
    · next name hname =>
      split
      · exact own_fail ⟨h1, h2, h3⟩
      · refine ⟨fun _ _ _ => by simp [hname], fun _ _ _ _ => ⟨(fun h => nomatch h), (fun h => nomatch h), (fun h => nomatch h),
          (fun h => nomatch h)⟩, h3⟩
  · next hp =>
    have hs := h1 (by rw [hp]; decide) (by rw [hp]; decide) (by rw [hp]; decide)
    refine ⟨fun _ _ _ => hs, ?_, h3⟩
    intro name m hname hm
    refine ⟨fun _ => ?_, (fun h => nomatch h), (fun h => nomatch h), (fun h => nomatch h)⟩
    simp only [hname, Option.getD_some, setAttrs_same] at hm
    obtain ⟨m0, _, rfl⟩ := Option.map_eq_some_iff.1 hm
    rfl
  · next hp =>
    have hs := h1 (by rw [hp]; decide) (by rw [hp]; decide) (by rw [hp]; decide)
    refine ⟨fun _ _ _ => hs, ?_, h3⟩
    intro name m hname hm
    refine ⟨(fun h => nomatch h), fun _ => ?_, (fun h => nomatch h), (fun h => nomatch h)⟩
    dsimp only at hm ⊢
    split at hm
    · next v hv =>
      simp only [hname, Option.getD_some, setAttrs_same] at hm
      obtain ⟨m0, _, rfl⟩ := Option.map_eq_some_iff.1 hm
      exact hv.symm
    · next hv =>
      rw [hv]
      exact (h2 name m hname hm).1 hp
  · next hp =>
    have hs := h1 (by rw [hp]; decide) (by rw [hp]; decide) (by rw [hp]; decide)
    refine ⟨fun _ _ _ => hs, ?_, h3⟩
    intro name m hname hm
    refine ⟨(fun h => nomatch h), (fun h => nomatch h), fun _ => ?_, (fun h => nomatch h)⟩
    simp only [hname, Option.getD_some, setAttrs_same] at hm
    obtain ⟨m0, hm0, rfl⟩ := Option.map_eq_some_iff.1 hm
    exact ⟨(h2 name m0 hname hm0).2.1 hp, rfl⟩
  · next hp =>
    have hs := h1 (by rw [hp]; decide) (by rw [hp]; decide) (by rw [hp]; decide)
    refine ⟨fun _ _ _ => hs, ?_, h3⟩
    intro name m hname hm
    refine ⟨(fun h => nomatch h), (fun h => nomatch h), (fun h => nomatch h), fun _ => ?_⟩
    dsimp only at hm ⊢
    split at hm
    · next v hv =>
      simp only [hname, Option.getD_some, setAttrs_same] at hm
      obtain ⟨m0, hm0, rfl⟩ := Option.map_eq_some_iff.1 hm
      exact ⟨((h2 name m0 hname hm0).2.2.1 hp).1, hv.symm⟩
    · next hv =>
      rw [hv]
      exact (h2 name m hname hm).2.2.1 hp
  · next hp =>
    have hs := h1 (by rw [hp]; decide) (by rw [hp]; decide) (by rw [hp]; decide)
    split
    · exact own_fail ⟨h1, h2, h3⟩
    · next m hm =>
      split
      · refine ⟨fun _ _ h => absurd rfl h, fun _ _ _ _ => ⟨(fun h => nomatch h), (fun h => nomatch h), (fun h => nomatch h),
          (fun h => nomatch h)⟩, ?_⟩
        intro r hr
        simp only [Option.some.injEq] at hr
        subst hr
        cases hst : S.stem t.args.file with
        | none => rw [hst] at hs; simp at hs
        | some name =>
          rw [hst, Option.getD_some] at hm
          have := (h2 name m hst hm).2.2.2 hp
          simp only [this.1, this.2]
      · exact own_fail ⟨h1, h2, h3⟩
  · exact ⟨h1, h2, h3⟩

/-- **C63 (calls one after the other).** Whatever happened in the interpreter before, the function called sees in
`__NEUTRAL_SCHEMA__` and `__NEUTRAL_SCHEMA_DATA__` exactly what its own object asked for: nothing of an earlier call. -/
theorem C63_sequential (S : Scripts) (I : Interp) (c : ObjCall) (r : Str × Option Value × Option Value)
    (h : (execPy S I c).2.ran = some r) : r.2 = (c.schema, c.schemaData) := by
  have := own_tstep (own_tstep (own_tstep (own_tstep (own_tstep (own_tstep (own_tstep (own_new S I c)))))))
  have h2 := this.2.2 r h
  rw [h2]
  simp only [tstep_args]
  rfl

theorem own_other {S : Scripts} {I I' : Interp} {t : Thread} (h : Own S I t)
    (hm : ∀ name, S.stem t.args.file = some name → I'.modules name = I.modules name) : Own S I' t :=
  ⟨h.1, fun name m hn h' => h.2.1 name m hn (by rw [← hm name hn]; exact h'), h.2.2⟩

/-- Every call is in its own module. -/
def Apart (S : Scripts) (l : List Thread) : Prop :=
  ∀ (i j : Nat) (a b : Thread) x y, i ≠ j → l[i]? = some a → l[j]? = some b → S.stem a.args.file = some x → S.stem b.args.file = some y → x ≠ y

theorem sstep_get {S : Scripts} {s : Sys} {i : Nat} {t : Thread} (ht : s.threads[i]? = some t) (j : Nat) :
    (sstep S s i).threads[j]? = if i = j then some (tstep S s.interp t).2 else s.threads[j]? := by
  have hi : i < s.threads.length := (List.getElem?_eq_some_iff.1 ht).1
  simp only [sstep, ht]
  rw [List.getElem?_set]
  split
  · next h => subst h; simp [hi]
  · rfl

theorem sstep_args {S : Scripts} {s : Sys} {i j : Nat} {t : Thread} (h : (sstep S s i).threads[j]? = some t) :
    ∃ t0, s.threads[j]? = some t0 ∧ t0.args = t.args := by
  cases ht : s.threads[i]? with
  | none => simp only [sstep, ht] at h; exact ⟨t, h, rfl⟩
  | some u =>
    rw [sstep_get ht] at h
    split at h
    · next e =>
      subst e
      simp only [Option.some.injEq] at h
      exact ⟨u, ht, by rw [← h, tstep_args]⟩
    · exact ⟨t, h, rfl⟩

theorem apart_sstep {S : Scripts} {s : Sys} {i : Nat} (h : Apart S s.threads) : Apart S (sstep S s i).threads := by
  intro a b ta tb x y hab ha hb hx hy
  obtain ⟨ta0, ha0, hae⟩ := sstep_args ha
  obtain ⟨tb0, hb0, hbe⟩ := sstep_args hb
  exact h a b ta0 tb0 x y hab ha0 hb0 (by rw [hae]; exact hx) (by rw [hbe]; exact hy)

theorem own_sstep {S : Scripts} {s : Sys} (i : Nat) (hap : Apart S s.threads)
    (h : ∀ (j : Nat) t, s.threads[j]? = some t → Own S s.interp t) :
    ∀ (j : Nat) t, (sstep S s i).threads[j]? = some t → Own S (sstep S s i).interp t := by
  intro j t hj
  cases ht : s.threads[i]? with
  | none =>
    simp only [sstep, ht] at hj ⊢
    exact h j t hj
  | some u =>
    have hint : (sstep S s i).interp = (tstep S s.interp u).1 := by simp only [sstep, ht]
    rw [hint]
    rw [sstep_get ht] at hj
    split at hj
    · simp only [Option.some.injEq] at hj
      rw [← hj]
      exact own_tstep (h i u ht)
    · next hne =>
      refine own_other (h j t hj) (fun name hname => ?_)
      refine tstep_other (fun hu => ?_) (h i u ht).1
      exact hap i j u t name name hne ht hj hu hname rfl

/-- **C63 (calls at the same time, part).** Under every schedule of any number of renders in the process, a function
called sees what its own object asked for, provided no two of them use scripts with the same module name. Missing: scripts
with the same name, for which it is false (`C63_refuted`). -/
theorem C63_concurrent_partial (S : Scripts) (I : Interp) (calls : List ObjCall) (schedule : List Nat)
    (hnames : ∀ (i j : Nat) a b x y, i ≠ j → calls[i]? = some a → calls[j]? = some b → S.stem a.file = some x →
      S.stem b.file = some y → x ≠ y)
    (i : Nat) (c : ObjCall) (t : Thread) (r : Str × Option Value × Option Value) (hc : calls[i]? = some c)
    (ht : (sched S (begin I calls) schedule).threads[i]? = some t) (hr : t.ran = some r) :
    t.args = c ∧ r.2 = (c.schema, c.schemaData) := by
  have key : ∀ (l : List Nat) (s : Sys), Apart S s.threads → (∀ (j : Nat) t, s.threads[j]? = some t → Own S s.interp t) →
      (∀ t, s.threads[i]? = some t → t.args = c) →
      ∀ t, (sched S s l).threads[i]? = some t → t.args = c ∧ Own S (sched S s l).interp t := by
    intro l
    induction l with
    | nil => intro s _ ho ha t ht; exact ⟨ha t ht, ho i t ht⟩
    | cons k l ih =>
      intro s hap ho ha
      refine ih (sstep S s k) (apart_sstep hap) (own_sstep k hap ho) ?_
      intro t ht
      obtain ⟨t0, h0, he⟩ := sstep_args ht
      rw [← he]; exact ha t0 h0
  have hnew : ∀ (j : Nat) t, (begin I calls).threads[j]? = some t → ∃ d, calls[j]? = some d ∧ t = Thread.new d := by
    intro j t h
    simp only [begin, List.getElem?_map] at h
    obtain ⟨d, hd, rfl⟩ := Option.map_eq_some_iff.1 h
    exact ⟨d, hd, rfl⟩
  have := key schedule (begin I calls) ?_ ?_ ?_ t ht
  · refine ⟨this.1, ?_⟩
    rw [← this.1]
    exact this.2.2.2 r hr
  · intro a b ta tb x y hab ha hb hx hy
    obtain ⟨da, hda, rfl⟩ := hnew a ta ha
    obtain ⟨db, hdb, rfl⟩ := hnew b tb hb
    exact hnames a b da db x y hab hda hdb hx hy
  · intro j t h
    obtain ⟨d, _, rfl⟩ := hnew j t h
    exact own_new S I d
  · intro t h
    obtain ⟨d, hd, rfl⟩ := hnew i t h
    rw [hc] at hd
    simp only [Option.some.injEq] at hd
    rw [hd]; rfl

/-! ### C62: whose function is called -/

/-- The module of that name, if loaded, was made from the file. -/
def From (I : Interp) (name file : Str) : Prop := ∀ m, I.modules name = some m → m.file = file

/-- Only `file` provides the module `name` on the path. -/
def OnlyHere (S : Scripts) (path : List Str) (name file : Str) : Prop :=
  ∀ d ∈ path, ∀ f, S.provides d name = some f → f = file

theorem from_setAttrs {I : Interp} {name file n : Str} {f : Module → Module} (hf : ∀ m, (f m).file = m.file)
    (h : From I name file) : From (setAttrs I n f) name file := by
  intro m hm
  simp only [setAttrs] at hm
  split at hm
  · obtain ⟨m0, h0, rfl⟩ := Option.map_eq_some_iff.1 hm
    rw [hf]; exact h m0 h0
  · exact h m hm

/-- A step keeps the module of a name with its file, and extends the path at most by the directory of the script. -/
theorem from_tstep {S : Scripts} {I : Interp} {t : Thread} {name file : Str} (h : From I name file)
    (ho : OnlyHere S I.path name file) (hd : ∀ f, S.provides (S.dir t.args.file) name = some f → f = file) :
    From (tstep S I t).1 name file ∧ OnlyHere S (tstep S I t).1.path name file ∧
    ((∀ r, t.ran = some r → S.stem t.args.file = some name → r.1 = file) →
      (t.pc ≠ .path → t.pc ≠ .load → t.pc ≠ .done → (S.stem t.args.file).isSome = true) →
      ∀ r, (tstep S I t).2.ran = some r → S.stem t.args.file = some name → r.1 = file) := by
  unfold tstep
  split
  · refine ⟨h, ?_, fun hr _ => hr⟩
    intro d hmem
    rcases List.mem_append.1 hmem with hm | hm
    · exact ho d hm
    · simp only [List.mem_singleton] at hm
      subst hm; exact hd
  · split
    · exact ⟨h, ho, fun hr _ => hr⟩
    · next n hn =>
      split
      · exact ⟨h, ho, fun hr _ => hr⟩
      · next I' hI' =>
        refine ⟨?_, by rw [import_path hI']; exact ho, fun hr _ => hr⟩
        intro m hm
        by_cases he : name = n
        · subst he
          obtain ⟨m', hm', hor⟩ := import_same hI'
          rw [hm'] at hm
          simp only [Option.some.injEq] at hm
          subst hm
          rcases hor with hor | ⟨_, d, hd', hp⟩
          · exact h m' hor
          · exact ho d hd' _ hp
        · rw [import_other hI' he] at hm
          exact h m hm
  · exact ⟨from_setAttrs (fun _ => rfl) h, ho, fun hr _ => hr⟩
  · dsimp only
    split
    · exact ⟨from_setAttrs (fun _ => rfl) h, ho, fun hr _ => hr⟩
    · exact ⟨h, ho, fun hr _ => hr⟩
  · exact ⟨from_setAttrs (fun _ => rfl) h, ho, fun hr _ => hr⟩
  · dsimp only
    split
    · exact ⟨from_setAttrs (fun _ => rfl) h, ho, fun hr _ => hr⟩
    · exact ⟨h, ho, fun hr _ => hr⟩
  · split
    · exact ⟨h, ho, fun hr _ => hr⟩
    · next m hm =>
      split
      · refine ⟨h, ho, fun _ _ r hr hst => ?_⟩
        simp only [Option.some.injEq] at hr
        subst hr
        rw [hst, Option.getD_some] at hm
        exact h m hm
      · exact ⟨h, ho, fun hr _ => hr⟩
  · exact ⟨h, ho, fun hr _ => hr⟩

theorem stemmed_tstep {S : Scripts} {I : Interp} {t : Thread}
    (h : t.pc ≠ .path → t.pc ≠ .load → t.pc ≠ .done → (S.stem t.args.file).isSome = true) :
    (tstep S I t).2.pc ≠ .path → (tstep S I t).2.pc ≠ .load → (tstep S I t).2.pc ≠ .done →
      (S.stem t.args.file).isSome = true := by
  unfold tstep
  split
  · intro _ h2; exact absurd rfl h2
  · split
    · intro _ _ h3; exact absurd rfl h3
    · next n hn => intros; simp [hn]
  all_goals next hp => intros; exact h (by rw [hp]; decide) (by rw [hp]; decide) (by first | rw [hp]; decide | (exfalso; simp_all))

/-- **C62 (part).** Under every schedule of any number of calls, a function that runs comes from the script file its object
names, provided that nothing on the path and no directory of a script used provides the same module name from another file,
and no other file was loaded under that name before. Missing: scripts that share their name with another module, for which it
is false (`C62_refuted`). -/
theorem C62_own_partial (S : Scripts) (I : Interp) (calls : List ObjCall) (schedule : List Nat) (i : Nat) (c : ObjCall)
    (name : Str) (t : Thread) (r : Str × Option Value × Option Value) (hc : calls[i]? = some c)
    (hname : S.stem c.file = some name) (hloaded : ∀ m, I.modules name = some m → m.file = c.file)
    (hpath : ∀ d ∈ I.path, ∀ f, S.provides d name = some f → f = c.file)
    (hdirs : ∀ x ∈ calls, ∀ f, S.provides (S.dir x.file) name = some f → f = c.file)
    (ht : (sched S (begin I calls) schedule).threads[i]? = some t) (hr : t.ran = some r) : r.1 = c.file := by
  have key : ∀ (l : List Nat) (s : Sys), From s.interp name c.file → OnlyHere S s.interp.path name c.file →
      (∀ (j : Nat) u, s.threads[j]? = some u →
        (∀ f, S.provides (S.dir u.args.file) name = some f → f = c.file) ∧
        (∀ r, u.ran = some r → S.stem u.args.file = some name → r.1 = c.file) ∧
        (u.pc ≠ .path → u.pc ≠ .load → u.pc ≠ .done → (S.stem u.args.file).isSome = true) ∧ (j = i → u.args = c)) →
      ∀ u, (sched S s l).threads[i]? = some u →
        u.args = c ∧ ∀ r, u.ran = some r → S.stem u.args.file = some name → r.1 = c.file := by
    intro l
    induction l with
    | nil => intro s _ _ ha u hu; exact ⟨(ha i u hu).2.2.2 rfl, (ha i u hu).2.1⟩
    | cons k l ih =>
      intro s hfrom hpath ha
      cases hk : s.threads[k]? with
      | none =>
        have : sstep S s k = s := by simp only [sstep, hk]
        simp only [sched, this]
        exact ih s hfrom hpath ha
      | some v =>
        have hint : (sstep S s k).interp = (tstep S s.interp v).1 := by simp only [sstep, hk]
        obtain ⟨hv1, hv2, hv3, hv4⟩ := ha k v hk
        obtain ⟨s1, s2, s3⟩ := from_tstep hfrom hpath hv1
        refine ih (sstep S s k) (by rw [hint]; exact s1) (by rw [hint]; exact s2) ?_
        intro j u hu
        rw [sstep_get hk] at hu
        split at hu
        · next e =>
          subst e
          simp only [Option.some.injEq] at hu
          subst hu
          rw [tstep_args]
          exact ⟨hv1, s3 hv2 hv3, stemmed_tstep hv3, hv4⟩
        · exact ha j u hu
  have := key schedule (begin I calls) hloaded hpath ?_ t ht
  · refine this.2 r hr ?_
    rw [this.1]; exact hname
  · intro j u hu
    simp only [begin, List.getElem?_map] at hu
    obtain ⟨d, hd, rfl⟩ := Option.map_eq_some_iff.1 hu
    refine ⟨hdirs d (List.mem_of_getElem? hd), (fun _ h => nomatch h), fun h => absurd rfl h, ?_⟩
    rintro rfl
    rw [hc] at hd
    simp only [Option.some.injEq] at hd
    rw [hd]; rfl

/-- **C62 (the function does run).** A script whose module name nothing else provides is loaded from its file, its function is
called with the parameters of the object, and the result is that of the function. -/
theorem C62_runs (S : Scripts) (I : Interp) (c : ObjCall) (name : Str) (hname : S.stem c.file = some name)
    (hnew : I.modules name = none) (hpath : ∀ d ∈ I.path, S.provides d name = none)
    (hdir : S.provides (S.dir c.file) name = some c.file) (hload : S.loadErr c.file = none)
    (hdef : S.defines c.file c.callback = true) :
    (execPy S I c).2.ran = some (c.file, c.schema, c.schemaData) ∧
    (execPy S I c).2.result = some (match S.call c.file c.callback c.params c.schema c.schemaData with
      | .ok v => .ok v
      | .error e => .error (c!"Error executing callback function '" ++ c.callback ++ c!"': " ++ e)) := by
  have hfind : (I.path ++ [S.dir c.file]).findSome? (fun d => S.provides d name) = some c.file := by
    rw [List.findSome?_append]
    have : I.path.findSome? (fun d => S.provides d name) = none := List.findSome?_eq_none_iff.2 hpath
    rw [this]
    simp [hdir]
  cases hs : c.schema <;> cases hd : c.schemaData <;>
    (simp [execPy, tstep, Thread.new, hname, importModule, hnew, hfind, hload, setAttrs, hs, hd, hdef, callErr]
     split <;> next h => simp [h])

/-- **C62 (an already loaded name).** When some module was loaded under the script's name before, it is that module's
function that runs, whatever file the object names. -/
theorem C62_cached (S : Scripts) (I : Interp) (c : ObjCall) (name : Str) (m : Module) (hname : S.stem c.file = some name)
    (hm : I.modules name = some m) (r : Str × Option Value × Option Value) (h : (execPy S I c).2.ran = some r) :
    r.1 = m.file := by
  revert h
  cases hs : c.schema <;> cases hd : c.schemaData <;> by_cases hdef : S.defines m.file c.callback = true <;>
    simp [execPy, tstep, Thread.new, hname, importModule, hm, setAttrs, hs, hd, hdef, callErr, Thread.fail] <;>
    (rintro rfl; rfl)

theorem defined_tstep {S : Scripts} {I : Interp} {t : Thread} (h : ∀ r, t.ran = some r → S.defines r.1 t.args.callback = true) :
    ∀ r, (tstep S I t).2.ran = some r → S.defines r.1 (tstep S I t).2.args.callback = true := by
  intro r
  rw [tstep_args]
  unfold tstep
  split
  · exact h r
  · split
    · exact h r
    · split
      · exact h r
      · exact h r
  · exact h r
  · exact h r
  · exact h r
  · exact h r
  · split
    · exact h r
    · split
      · next hd => intro hr; simp only [Option.some.injEq] at hr; rw [← hr]; exact hd
      · exact h r
  · exact h r

/-- **C62 (only what is defined).** Under every schedule, a function that runs is one that the file it comes from defines, by the name
the object gives. -/
theorem C62_defined (S : Scripts) (I : Interp) (calls : List ObjCall) (schedule : List Nat) (i : Nat) (t : Thread)
    (r : Str × Option Value × Option Value) (ht : (sched S (begin I calls) schedule).threads[i]? = some t) (hr : t.ran = some r) :
    S.defines r.1 t.args.callback = true := by
  have key : ∀ (l : List Nat) (s : Sys), (∀ (j : Nat) u, s.threads[j]? = some u → ∀ r, u.ran = some r → S.defines r.1 u.args.callback = true) →
      ∀ (j : Nat) u, (sched S s l).threads[j]? = some u → ∀ r, u.ran = some r → S.defines r.1 u.args.callback = true := by
    intro l
    induction l with
    | nil => intro s h; exact h
    | cons k l ih =>
      intro s h
      cases hk : s.threads[k]? with
      | none =>
        have : sstep S s k = s := by simp only [sstep, hk]
        simp only [sched, this]
        exact ih s h
      | some v =>
        refine ih (sstep S s k) ?_
        intro j u hu
        rw [sstep_get hk] at hu
        split at hu
        · simp only [Option.some.injEq] at hu
          subst hu
          exact defined_tstep (h k v hk)
        · exact h j u hu
  refine key schedule (begin I calls) ?_ i t ht r hr
  intro j u hu
  simp only [begin, List.getElem?_map] at hu
  obtain ⟨d, hd, rfl⟩ := Option.map_eq_some_iff.1 hu
  exact fun r h => nomatch h

/-- **C62 (errors).** When the file cannot be loaded, or it does not define the function, the object is an error and nothing runs. -/
theorem C62_errors (S : Scripts) (I : Interp) (c : ObjCall) (name : Str) (hname : S.stem c.file = some name)
    (hnew : I.modules name = none) (hpath : ∀ d ∈ I.path, S.provides d name = none)
    (hbad : S.provides (S.dir c.file) name = none ∨
      (S.provides (S.dir c.file) name = some c.file ∧ ((∃ e, S.loadErr c.file = some e) ∨ S.defines c.file c.callback = false))) :
    (execPy S I c).2.ran = none ∧ ∃ e, (execPy S I c).2.result = some (.error e) := by
  have hfind : (I.path ++ [S.dir c.file]).findSome? (fun d => S.provides d name) = S.provides (S.dir c.file) name := by
    rw [List.findSome?_append]
    have : I.path.findSome? (fun d => S.provides d name) = none := List.findSome?_eq_none_iff.2 hpath
    rw [this]
    cases h : S.provides (S.dir c.file) name <;> simp [h]
  rcases hbad with hb | ⟨hb, ⟨e, he⟩ | hd⟩
  · simp [execPy, tstep, Thread.new, hname, importModule, hnew, hfind, hb, Thread.fail]
  · simp [execPy, tstep, Thread.new, hname, importModule, hnew, hfind, hb, he, Thread.fail]
  · cases hl : S.loadErr c.file with
    | some e => simp [execPy, tstep, Thread.new, hname, importModule, hnew, hfind, hb, hl, Thread.fail]
    | none =>
      cases hs : c.schema <;> cases hdt : c.schemaData <;>
        simp [execPy, tstep, Thread.new, hname, importModule, hnew, hfind, hb, hl, setAttrs, hs, hdt, hd, callErr, Thread.fail]

/-! ### witnesses -/

/-- Scripts `/a/main.py` and `/b/main.py`: directories are the first two characters, the module is called `main`; a function
returns the schema it sees. -/
def exScripts : Scripts where
  stem := fun _ => some c!"main"
  dir := fun f => f.take 2
  provides := fun d n => if n = c!"main" ∧ (d = c!"/a" ∨ d = c!"/b") then some (d ++ c!"/main.py") else none
  loadErr := fun _ => none
  defines := fun _ _ => true
  call := fun _ _ _ s _ => .ok (s.getD .null)

/-- An object. -/
def exCall (file : Str) (schema : Option Value) : ObjCall := ⟨true, file, .null, c!"main", schema, none, none, []⟩

/-- An interpreter that has loaded nothing. -/
def exInterp : Interp := ⟨[], fun _ => none⟩

/-- **C62 is false as stated.** After an object of `/a/main.py`, an object that names `/b/main.py` runs the function of
`/a/main.py`. -/
theorem C62_refuted :
    ((execPy exScripts (execPy exScripts exInterp (exCall c!"/a/main.py" none)).1 (exCall c!"/b/main.py" none)).2.ran.map
      (fun r => r.1)) = some c!"/a/main.py" := by
  decide +kernel

/-- **C63 is false as stated.** Two renders of one process call the same script; the first asks for its schema (the text
`one`), the second for its own (`two`): the function of the first sees the schema of the second. -/
theorem C63_refuted :
    (((sched exScripts (begin exInterp [exCall c!"/a/main.py" (some (.str c!"one")), exCall c!"/a/main.py" (some (.str c!"two"))])
      [0, 0, 0, 0, 0, 0, 1, 1, 1, 1, 0]).threads[0]?).bind (fun t => t.ran)).bind (fun r => r.2.1.bind Value.asStr?) =
      some c!"two" := by
  decide +kernel

/-- A call of a function that the script does not define. -/
example : (execPy { exScripts with defines := fun _ f => f == c!"main" } exInterp { exCall c!"/a/main.py" none with callback := c!"other" }).2.ran.isNone = true := by
  decide

/-- The hypotheses of `C62_runs` are met. -/
example : (execPy exScripts exInterp (exCall c!"/b/main.py" (some (.str c!"s")))).2.ran.map (fun r => r.1) = some c!"/b/main.py" ∧
    exScripts.stem c!"/b/main.py" = some c!"main" ∧ exScripts.provides (exScripts.dir c!"/b/main.py") c!"main" = some c!"/b/main.py" := by
  decide +kernel

end Nts.Py
