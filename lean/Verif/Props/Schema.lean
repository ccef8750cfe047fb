import Verif.Props.Merge
import Verif.Props.Render
/-
C60: the schema and source of a template after any history of calls.
-/
set_option autoImplicit false
namespace Nts
open Spec

/-- `Built env docs t`: the template `t` was made by one of the constructors and then changed by any sequence of calls
other than `render_once`, among which those that merge a schema merged the documents `docs`, in that order (the first is
the schema given to the constructor, if there is one). A merge that reports an error leaves the template as it was. -/
inductive Spec.Built (env : Env) : List Value → Tpl → Prop
  | new {w : World} {t : Tpl} : Tpl.new env w = .ok t → Built env [] t
  | fromFile {w : World} {path : Str} {v : Value} {t : Tpl} : Tpl.fromFileValue env w path v = .ok t → Built env [v] t
  | fromMsgpack {w : World} {path : Str} {v : Value} {t : Tpl} :
      Tpl.fromFileMsgpack env w path false (.ok v) = .ok t → Built env [v] t
  | fromNothing {w : World} {path : Str} {d : Except Str Value} {t : Tpl} :
      Tpl.fromFileMsgpack env w path true d = .ok t → Built env [.obj []] t
  | setSrcPath {docs : List Value} {t : Tpl} (w : World) (path : Str) : Built env docs t →
      Built env docs (t.setSrcPath env w path).1
  | setSrcStr {docs : List Value} {t : Tpl} (src : Str) : Built env docs t → Built env docs (t.setSrcStr src)
  | mergeStr {docs : List Value} {t t' : Tpl} {text : Str} {v : Value} : Built env docs t →
      env.jsonParse text = some v → t.mergeSchemaStr env text = .ok t' → Built env (docs ++ [v]) t'
  | mergePath {docs : List Value} {t t' : Tpl} {w : World} {path text : Str} {e : FileEntry} {v : Value} :
      Built env docs t → w.fs path = some e → e.content = some text → env.jsonParse text = some v →
      t.mergeSchemaPath env w path = .ok t' → Built env (docs ++ [v]) t'
  | mergeValue {docs : List Value} {t t' : Tpl} {v : Value} : Built env docs t → t.mergeSchemaValue v = .ok t' →
      Built env (docs ++ [v]) t'
  | mergeMsgpack {docs : List Value} {t t' : Tpl} {v : Value} : Built env docs t →
      t.mergeSchemaMsgpack (.ok v) = .ok t' → Built env (docs ++ [v]) t'
  | mergeMsgpackPath {docs : List Value} {t t' : Tpl} {w : World} {path : Str} {v : Value} : Built env docs t →
      t.mergeSchemaMsgpackPath env w path (.ok v) = .ok t' → Built env (docs ++ [v]) t'
  | render {docs : List Value} {t t' : Tpl} {n : Nat} {w : World} : Built env docs t → t.render env n w = .ok t' →
      Built env docs t'

/-- Updates one after the other. -/
def updates : Value → List Value → Option Value
  | s, [] => some s
  | s, d :: ds => (updateSchema s d).bind (fun s' => updates s' ds)

theorem updates_snoc (s : Value) (ds : List Value) (d : Value) :
    updates s (ds ++ [d]) = (updates s ds).bind (fun s' => updateSchema s' d) := by
  induction ds generalizing s with
  | nil =>
    simp only [List.nil_append, updates, Option.bind_some]
    cases updateSchema s d <;> rfl
  | cons a r ih =>
    simp only [List.cons_append, updates]
    cases updateSchema s a with
    | none => rfl
    | some s' => exact ih s'

theorem merge_ok {t t' : Tpl} {v : Value} (h : t.merge v = .ok t') :
    updateSchema t.schema v = some t'.schema ∧ t'.raw = t.raw ∧ t'.filePath = t.filePath ∧ t'.out = t.out ∧
      t'.shared = t.shared := by
  unfold Tpl.merge at h
  rw [C07_owned_same] at h
  split at h
  · next s hs => simp only [TRes.ok.injEq] at h; subst h; exact ⟨hs, rfl, rfl, rfl, rfl⟩
  · simp at h

theorem fromFileValue_ok {env : Env} {w : World} {path : Str} {v : Value} {t : Tpl}
    (h : Tpl.fromFileValue env w path v = .ok t) :
    updateSchema defaultSchema v = some t.schema ∧ t.filePath = path ∧ t.out = [] ∧
      ∃ e, w.fs path = some e ∧ e.content = some t.raw := by
  unfold Tpl.fromFileValue at h
  rw [C07_owned_same] at h
  split at h
  · simp at h
  · next raw hr =>
    split at h
    · next s sh hs _ =>
      simp only [TRes.ok.injEq] at h
      subst h
      obtain ⟨e, he, hc⟩ := Option.bind_eq_some_iff.1 hr
      exact ⟨hs, rfl, rfl, e, he, hc⟩
    · simp at h
    · simp at h

theorem built_updates {env : Env} {docs : List Value} {t : Tpl} (h : Built env docs t) :
    updates defaultSchema docs = some t.schema := by
  induction h with
  | new h =>
    unfold Tpl.new at h
    split at h
    · simp at h
    · simp only [TRes.ok.injEq] at h; subst h; rfl
  | fromFile h => simp only [updates, (fromFileValue_ok h).1, Option.bind_some]
  | fromMsgpack h =>
    simp only [Tpl.fromFileMsgpack, Bool.false_eq_true, if_false] at h
    simp only [updates, (fromFileValue_ok h).1, Option.bind_some]
  | fromNothing h =>
    simp only [Tpl.fromFileMsgpack, if_true] at h
    simp only [updates, (fromFileValue_ok h).1, Option.bind_some]
  | setSrcPath w path _ ih => unfold Tpl.setSrcPath; split <;> exact ih
  | setSrcStr src _ ih => exact ih
  | mergeStr _ hj h ih =>
    simp only [Tpl.mergeSchemaStr, hj] at h
    rw [updates_snoc, ih]; exact (merge_ok h).1
  | mergePath _ h1 h2 hj h ih =>
    simp only [Tpl.mergeSchemaPath, h1, Option.bind_some, h2, hj] at h
    rw [updates_snoc, ih]; exact (merge_ok h).1
  | mergeValue _ h ih => rw [updates_snoc, ih]; exact (merge_ok h).1
  | mergeMsgpack _ h ih => rw [updates_snoc, ih]; exact (merge_ok h).1
  | mergeMsgpackPath _ h ih =>
    unfold Tpl.mergeSchemaMsgpackPath at h
    split at h
    · simp at h
    · rw [updates_snoc, ih]; exact (merge_ok h).1
  | render _ h ih =>
    rw [ih]
    unfold Tpl.render at h
    split at h
    · simp only [RRes.ok.injEq] at h; subst h; rfl
    · unfold renderWith at h
      split at h
      · simp at h
      split at h
      · simp at h
      split at h
      · simp at h
      · simp at h
      split at h
      · simp at h
      · simp at h
      split at h
      · simp at h
      · simp only [RRes.ok.injEq] at h; subst h; rfl

/-- A path that schema updates do not treat specially: not the version, not the request headers. -/
def Spec.Ordinary (p : List Str) : Prop := ¬ [c!"version"] <+: p ∧ ¬ headersPath <+: p ∧ ¬ p <+: headersPath

/-- The document `d` says nothing about the path `p`: it has nothing there, and only objects above. -/
def Spec.Silent (d : Value) (p : List Str) : Prop :=
  Spec.at d p = none ∧ ∀ q, q <+: p → ∀ w, Spec.at d q = some w → IsObj w

theorem updates_silent {p : List Str} (hp : Ordinary p) (ds : List Value) :
    ∀ s s', updates s ds = some s' → (∀ d ∈ ds, d.WF ∧ Silent d p) → Spec.at s' p = Spec.at s p := by
  induction ds with
  | nil => intro s s' h _; simp only [updates, Option.some.injEq] at h; rw [h]
  | cons d r ih =>
    intro s s' h hd
    simp only [updates] at h
    obtain ⟨s1, h1, h2⟩ := Option.bind_eq_some_iff.1 h
    rw [ih s1 s' h2 (fun d hd' => hd d (List.mem_cons_of_mem _ hd')),
      (C07_rest_unchanged s d s1 h1).2 p hp.1 hp.2.1 hp.2.2]
    have := hd d (by simp)
    exact C06_untouched s d this.1 p this.2.1 this.2.2

theorem updates_append (s : Value) (a b : List Value) :
    updates s (a ++ b) = (updates s a).bind (fun s' => updates s' b) := by
  induction a generalizing s with
  | nil => rfl
  | cons d r ih =>
    simp only [List.cons_append, updates]
    cases updateSchema s d with
    | none => rfl
    | some s' => exact ih s'

/-- **C60 (last document wins).** After any history of calls (renders included), the value of the template's schema at a
path is the one given by the last merged document that says something about it. -/
theorem C60_last_document (env : Env) (docs later : List Value) (d w : Value) (t : Tpl) (p : List Str)
    (h : Built env (docs ++ d :: later) t) (hwf : ∀ x ∈ docs ++ d :: later, x.WF) (hp : Ordinary p)
    (hd : Spec.at d p = some w) (hw : ¬ IsObj w) (hl : ∀ x ∈ later, Silent x p) :
    Spec.at t.schema p = some w := by
  have hb := built_updates h
  rw [updates_append] at hb
  obtain ⟨s1, h1, h2⟩ := Option.bind_eq_some_iff.1 hb
  simp only [updates] at h2
  obtain ⟨s2, h3, h4⟩ := Option.bind_eq_some_iff.1 h2
  rw [updates_silent hp later s2 _ h4 (fun x hx => ⟨hwf x (by simp [hx]), hl x hx⟩),
    (C07_rest_unchanged s1 d s2 h3).2 p hp.1 hp.2.1 hp.2.2]
  exact C06_last_writer s1 d (hwf d (by simp)) p w hd hw

/-- **C60 (defaults).** A path no merged document says anything about has the value of the default schema. -/
theorem C60_default (env : Env) (docs : List Value) (t : Tpl) (p : List Str) (h : Built env docs t)
    (hwf : ∀ x ∈ docs, x.WF) (hp : Ordinary p) (hl : ∀ x ∈ docs, Silent x p) :
    Spec.at t.schema p = Spec.at defaultSchema p :=
  updates_silent hp docs _ _ (built_updates h) (fun x hx => ⟨hwf x hx, hl x hx⟩)

/-- **C60 (every way of merging is the same).** The same document gives the same template, whether it comes as a value,
as JSON text, from a file or as MessagePack; none of them changes the source or the last result. -/
theorem C60_same_merge (env : Env) (w : World) (t : Tpl) (v : Value) (text path : Str) (e : FileEntry)
    (hj : env.jsonParse text = some v) (he : w.fs path = some e) (hc : e.content = some text) :
    t.mergeSchemaStr env text = t.mergeSchemaValue v ∧ t.mergeSchemaPath env w path = t.mergeSchemaValue v ∧
    t.mergeSchemaMsgpack (.ok v) = t.mergeSchemaValue v ∧
    t.mergeSchemaMsgpackPath env w path (.ok v) = t.mergeSchemaValue v ∧
    ∀ t', t.mergeSchemaValue v = .ok t' →
      t'.raw = t.raw ∧ t'.filePath = t.filePath ∧ t'.out = t.out ∧ t'.shared = t.shared := by
  refine ⟨by simp only [Tpl.mergeSchemaStr, hj]; rfl, ?_, rfl, ?_, fun t' h => (merge_ok h).2⟩
  · simp only [Tpl.mergeSchemaPath, he, Option.bind_some, hc, hj]; rfl
  · simp only [Tpl.mergeSchemaMsgpackPath, he]; rfl

/-- **C60 (constructor).** A template made from a file has the text and path of the file; a file that cannot be read is an
error, never a template. -/
theorem C60_from_file (env : Env) (w : World) (path : Str) (v : Value) :
    (∀ t, Tpl.fromFileValue env w path v = .ok t →
      t.filePath = path ∧ t.out = [] ∧ ∃ e, w.fs path = some e ∧ e.content = some t.raw) ∧
    ((w.fs path).bind (fun e => e.content) = none → Tpl.fromFileValue env w path v = .err (env.readErr path)) := by
  refine ⟨fun t h => (fromFileValue_ok h).2, fun h => ?_⟩
  simp only [Tpl.fromFileValue, h]

/-- **C60 (rejected documents).** A merge reports an error exactly when the document cannot be read or is not valid: it is never
ignored. -/
theorem C60_rejected (env : Env) (w : World) (t : Tpl) (text path : Str) (d : Except Str Value) (v : Value) (noBytes : Bool) :
    ((∃ m, t.mergeSchemaStr env text = .err m) ↔ env.jsonParse text = none) ∧
    ((∃ m, t.mergeSchemaPath env w path = .err m) ↔
      ∀ e text, w.fs path = some e → e.content = some text → env.jsonParse text = none) ∧
    (¬ ∃ m, t.mergeSchemaValue v = .err m) ∧
    ((∃ m, t.mergeSchemaMsgpack d = .err m) ↔ ∃ m, d = .error m) ∧
    ((∃ m, t.mergeSchemaMsgpackPath env w path d = .err m) ↔ w.fs path = none ∨ ∃ m, d = .error m) ∧
    ((∃ m, Tpl.fromFileMsgpack env w path noBytes d = .err m) ↔
      (∀ e text, w.fs path = some e → e.content ≠ some text) ∨ (noBytes = false ∧ ∃ m, d = .error m)) := by
  have hm : ∀ v, ¬ ∃ m, t.merge v = .err m := by
    rintro v ⟨m, h⟩
    unfold Tpl.merge at h
    split at h <;> simp at h
  have hmsg : ∀ d : Except Str Value, (∃ m, t.mergeSchemaMsgpack d = .err m) ↔ ∃ m, d = .error m := by
    intro d
    unfold Tpl.mergeSchemaMsgpack
    cases d with
    | error e => simp
    | ok v => simpa using hm v
  have hff : ∀ v, (∃ m, Tpl.fromFileValue env w path v = .err m) ↔ ∀ e text, w.fs path = some e → e.content ≠ some text := by
    intro v
    unfold Tpl.fromFileValue
    cases hf : w.fs path with
    | none => simp
    | some e =>
      cases hc : e.content with
      | none =>
        simp only [Option.bind_some, hc, TRes.err.injEq, exists_eq', true_iff]
        rintro e' text' h1 h2
        injection h1 with h1
        subst h1
        simp [hc] at h2
      | some text =>
        simp only [Option.bind_some, hc]
        refine ⟨fun h => ?_, fun h => absurd hc (h e text rfl)⟩
        obtain ⟨m, h⟩ := h
        split at h <;> simp at h
  refine ⟨?_, ?_, hm v, hmsg d, ?_, ?_⟩
  · unfold Tpl.mergeSchemaStr
    cases env.jsonParse text with
    | none => simp
    | some v => simpa using hm v
  · unfold Tpl.mergeSchemaPath
    cases hf : w.fs path with
    | none => simp
    | some e =>
      cases hc : e.content with
      | none =>
        simp only [Option.bind_some, hc, TRes.err.injEq, exists_eq', true_iff]
        rintro e' text' h1 h2
        injection h1 with h1
        subst h1
        simp [hc] at h2
      | some text =>
        simp only [Option.bind_some, hc]
        cases hj : env.jsonParse text with
        | none =>
          simp only [TRes.err.injEq, exists_eq', true_iff]
          rintro e' text' h1 h2
          injection h1 with h1
          subst h1
          rw [hc] at h2
          injection h2 with h2
          subst h2
          exact hj
        | some v =>
          refine ⟨fun h => absurd h (hm v), fun h => ?_⟩
          have := h e text rfl hc
          rw [hj] at this
          simp at this
  · unfold Tpl.mergeSchemaMsgpackPath
    cases hf : w.fs path with
    | none => simp
    | some e => simpa using hmsg d
  · unfold Tpl.fromFileMsgpack
    cases noBytes with
    | true => simpa using hff _
    | false =>
      cases d with
      | error e => simp
      | ok v => simpa using hff v

/-- **C60 (what is said).** A document that is not valid is reported with the text for its kind, and for MessagePack with what the
decoder says; a file that cannot be read with the error of the system.  (The texts of the crate.) -/
theorem C60_messages (env : Env) (w : World) (t : Tpl) (text path m : Str) (e : FileEntry) :
    (env.jsonParse text = none → t.mergeSchemaStr env text = .err c!"Is not a valid JSON string") ∧
    (w.fs path = some e → e.content = some text → env.jsonParse text = none →
      t.mergeSchemaPath env w path = .err c!"Is not a valid JSON file") ∧
    (w.fs path = none → t.mergeSchemaPath env w path = .err (env.readErr path)) ∧
    t.mergeSchemaMsgpack (.error m) = .err (c!"Is not a valid MessagePack data: " ++ m) ∧
    (w.fs path = some e → t.mergeSchemaMsgpackPath env w path (.error m) = .err (c!"Is not a valid MessagePack data: " ++ m)) ∧
    (∀ d, w.fs path = none → t.mergeSchemaMsgpackPath env w path d = .err (env.readErr path)) ∧
    Tpl.fromFileMsgpack env w path false (.error m) = .err (c!"Invalid MessagePack data: " ++ m) ∧
    (∀ v, w.fs path = none → Tpl.fromFileMsgpack env w path false (.ok v) = .err (env.readErr path)) := by
  refine ⟨fun h => ?_, fun h1 h2 h3 => ?_, fun h => ?_, rfl, fun h => ?_, fun d h => ?_, rfl, fun v h => ?_⟩
  · simp only [Tpl.mergeSchemaStr, h]
  · simp only [Tpl.mergeSchemaPath, h1, Option.bind_some, h2, h3]
  · simp only [Tpl.mergeSchemaPath, h, Option.bind_none]
  · simp only [Tpl.mergeSchemaMsgpackPath, h, Tpl.mergeSchemaMsgpack]
  · simp only [Tpl.mergeSchemaMsgpackPath, h]
  · simp only [Tpl.fromFileMsgpack, Bool.false_eq_true, if_false, Tpl.fromFileValue, h, Option.bind_none]

/-- **C60 (source).** Setting the source changes nothing else; reading it from a file that cannot be read keeps the old
source (and reports the error). -/
theorem C60_source (env : Env) (w : World) (t : Tpl) (path src : Str) :
    t.setSrcStr src = { t with raw := src } ∧
    (∀ e text, w.fs path = some e → e.content = some text →
      t.setSrcPath env w path = ({ t with filePath := path, raw := text }, none)) ∧
    ((w.fs path).bind (fun e => e.content) = none →
      t.setSrcPath env w path = ({ t with filePath := path }, some (env.readErr path))) := by
  refine ⟨rfl, fun e text he hc => ?_, fun h => ?_⟩
  · simp only [Tpl.setSrcPath, he, Option.bind_some, hc]
  · simp only [Tpl.setSrcPath, h]

/-- The premises are met: a template built with two documents, where the second overrides one entry of the first and the
default schema keeps another. -/
example : ∃ t, Built Sample.env [.obj [(c!"config", .obj [(c!"cache_prefix", .str c!"one"), (c!"filter_all", .bool true)])],
      .obj [(c!"config", .obj [(c!"cache_prefix", .str c!"two")])]] t ∧
    Spec.at t.schema [c!"config", c!"cache_prefix"] = some (.str c!"two") ∧
    Spec.at t.schema [c!"config", c!"filter_all"] = some (.bool true) ∧
    Spec.at t.schema [c!"config", c!"comments"] = some (.str c!"remove") ∧
    Ordinary [c!"config", c!"cache_prefix"] :=
  ⟨_, .mergeValue (docs := [_]) (.mergeValue (docs := []) (.new (w := Sample.world) rfl) rfl) rfl, rfl, rfl, rfl,
    by unfold Ordinary headersPath; decide⟩

end Nts
