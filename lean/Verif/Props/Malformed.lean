import Verif.Lemmas.Value
import Verif.Lemmas.Eval
import Verif.Lemmas.RunInh
import Verif.Spec.Sample
/-
C42: malformed and unknown BIFs.
-/
set_option autoImplicit false
namespace Nts
open Spec

/-- The built-in functions and the modifiers each of them accepts (the empty name is that of variables). -/
def Spec.accepts : List (Str × Str) := [
  ([], c!"&!^"), (c!"allow", c!"!^"), (c!"array", c!"!^+"), (c!"bool", c!"!^+"), (c!"cache", c!"!^"),
  (c!"coalesce", c!"^+"), (c!"code", c!"^+"), (c!"contains", c!"!^+"), (c!"count", c!"^"), (c!"data", c!"!^"),
  (c!"date", c!"^"), (c!"declare", c!"^"), (c!"defined", c!"!^+"), (c!"each", c!"^+"), (c!"else", c!"!^+"),
  (c!"eval", c!"!^+"), (c!"exit", c!"!^"), (c!"fetch", c!"^"), (c!"filled", c!"!^+"), (c!"flg", c!""),
  (c!"for", c!"^+"), (c!"hash", c!"^"), (c!"include", c!"!^"), (c!"join", c!"^"), (c!"lang", c!"^"),
  (c!"locale", c!"!^"), (c!"moveto", c!"^"), (c!"neutral", c!"^"), (c!"param", c!"^"), (c!"rand", c!"^"),
  (c!"redirect", c!"^"), (c!"replace", c!"^"), (c!"same", c!"!^+"), (c!"snippet", c!"^"), (c!"snip", c!"^"),
  (c!"sum", c!"^"), (c!"trans", c!"!^"), (c!"obj", c!"^+"), (c!"debug", c!"&!^")]

theorem named_accepts {name acc : Str} (h : (name, acc) ∈ accepts) : Named name := by
  have : ∀ p ∈ accepts, ';' ∉ p.1 ∧ (p.1.head?.all (fun c => decide (c.toNat < 128) && decide (c ≠ '&') && decide (c ≠ '!') && decide (c ≠ '^') && decide (c ≠ '+'))) = true := by
    decide
  have h1 := this _ h
  refine ⟨h1.1, ?_⟩
  intro c r hc
  have h2 := h1.2
  simp only [hc, List.head?_cons, Option.all_some, Bool.and_eq_true, decide_eq_true_eq] at h2
  obtain ⟨⟨⟨⟨a, b⟩, c⟩, d⟩, e⟩ := h2
  exact ⟨a, b, c, d, e⟩

theorem deny_case (env : Env) (R : Rec) (sh : Shared) (inh : Inherit) (mods name src only : Str) (bad : BifS → Bool)
    (k : Unit → Prog Unit) (hbody : bifBody env name = denyMods bad >>= k)
    (hbad : bad (start sh inh mods name src only).b = true) :
    bifResult env (run R (bifBody env name) (start sh inh mods name src only)) =
      failed env mods name (bifText mods name src) c!"modifier not allowed" (counted sh) (entered sh inh) := by
  rw [hbody]
  simp only [run_bind, run_denyMods, hbad, if_true, andThen_err]
  exact bifResult_failed env mods name (bifText mods name src) _ (counted sh) (entered sh inh) _ rfl rfl rfl rfl rfl rfl

/-- **C42 (modifiers).** A known BIF with a modifier it does not accept is an error: nothing of it is evaluated, there is no
output, and one error is recorded. -/
theorem C42_modifier (env : Env) (R : Rec) (sh : Shared) (inh : Inherit) (mods name src only acc : Str) (c : Char)
    (hname : (name, acc) ∈ accepts) (hm : Mods mods) (hc : c ∈ mods) (hacc : c ∉ acc)
    (hmax : sh.count < sh.max) (hsel : Selected inh mods name only) :
    runBif env R sh inh (bifText mods name src) only =
      failed env mods name (bifText mods name src) c!"modifier not allowed" (counted sh) (entered sh inh) := by
  rw [runBif_text env R sh inh mods name src only hm (named_accepts hname) hmax hsel]
  have hc4 := hm c hc
  simp only [accepts, List.mem_cons, List.not_mem_nil, or_false, Prod.mk.injEq] at hname
  rcases hname with ⟨rfl, rfl⟩ | ⟨rfl, rfl⟩ | ⟨rfl, rfl⟩ | ⟨rfl, rfl⟩ | ⟨rfl, rfl⟩ | ⟨rfl, rfl⟩ | ⟨rfl, rfl⟩ | ⟨rfl, rfl⟩ | ⟨rfl, rfl⟩ | ⟨rfl, rfl⟩ | ⟨rfl, rfl⟩ | ⟨rfl, rfl⟩ | ⟨rfl, rfl⟩ | ⟨rfl, rfl⟩ | ⟨rfl, rfl⟩ | ⟨rfl, rfl⟩ | ⟨rfl, rfl⟩ | ⟨rfl, rfl⟩ | ⟨rfl, rfl⟩ | ⟨rfl, rfl⟩ | ⟨rfl, rfl⟩ | ⟨rfl, rfl⟩ | ⟨rfl, rfl⟩ | ⟨rfl, rfl⟩ | ⟨rfl, rfl⟩ | ⟨rfl, rfl⟩ | ⟨rfl, rfl⟩ | ⟨rfl, rfl⟩ | ⟨rfl, rfl⟩ | ⟨rfl, rfl⟩ | ⟨rfl, rfl⟩ | ⟨rfl, rfl⟩ | ⟨rfl, rfl⟩ | ⟨rfl, rfl⟩ | ⟨rfl, rfl⟩ | ⟨rfl, rfl⟩ | ⟨rfl, rfl⟩ | ⟨rfl, rfl⟩ | ⟨rfl, rfl⟩ <;>
  · refine deny_case env R sh inh mods _ src only _ _ rfl ?_
    rcases hc4 with rfl | rfl | rfl | rfl <;>
      first
      | exact absurd (by decide) hacc
      | simp [start, hc]

/-- The dispatch table knows no other names. -/
theorem bifBody_unknown (env : Env) {name : Str} (h : ∀ acc, (name, acc) ∉ accepts) : bifBody env name = bifUnknown := by
  have hne : ∀ x ∈ accepts.map (fun p => p.1), name ≠ x := by
    rintro x hx rfl
    obtain ⟨p, hp, rfl⟩ := List.mem_map.1 hx
    exact h p.2 hp
  have hl : accepts.map (fun p => p.1) = [[], c!"allow", c!"array", c!"bool", c!"cache", c!"coalesce", c!"code", c!"contains",
    c!"count", c!"data", c!"date", c!"declare", c!"defined", c!"each", c!"else", c!"eval", c!"exit", c!"fetch", c!"filled",
    c!"flg", c!"for", c!"hash", c!"include", c!"join", c!"lang", c!"locale", c!"moveto", c!"neutral", c!"param", c!"rand",
    c!"redirect", c!"replace", c!"same", c!"snippet", c!"snip", c!"sum", c!"trans", c!"obj", c!"debug"] := rfl
  rw [hl] at hne
  simp only [List.forall_mem_cons] at hne
  obtain ⟨h1, h2, h3, h4, h5, h6, h7, h8, h9, h10, h11, h12, h13, h14, h15, h16, h17, h18, h19, h20, h21, h22, h23, h24, h25,
    h26, h27, h28, h29, h30, h31, h32, h33, h34, h35, h36, h37, h38, h39, _⟩ := hne
  unfold bifBody
  rw [if_neg h1, if_neg h2, if_neg h3, if_neg h4, if_neg h5, if_neg h6, if_neg h7, if_neg h8, if_neg h9, if_neg h10,
    if_neg h11, if_neg h12, if_neg h13, if_neg h14, if_neg h15, if_neg h16, if_neg h17, if_neg h18, if_neg h19, if_neg h20,
    if_neg h21, if_neg h22, if_neg h23, if_neg h24, if_neg h25, if_neg h26, if_neg h27, if_neg h28, if_neg h29, if_neg h30,
    if_neg h31, if_neg h32, if_neg h33, if_neg h34, if_neg h35, if_neg h36, if_neg h37, if_neg h38, if_neg h39]

/-- **C42 (unknown names).** A BIF whose name is not one of the known ones is an error, with any modifiers and source:
nothing of it is evaluated, there is no output, and one error is recorded. -/
theorem C42_unknown (env : Env) (R : Rec) (sh : Shared) (inh : Inherit) (mods name src only : Str)
    (hname : ∀ acc, (name, acc) ∉ accepts) (hn : Named name) (hm : Mods mods)
    (hmax : sh.count < sh.max) (hsel : Selected inh mods name only) :
    runBif env R sh inh (bifText mods name src) only =
      failed env mods c!"unknown" (bifText mods name src) c!"unknown bif" (counted sh) (entered sh inh) := by
  rw [runBif_text env R sh inh mods name src only hm hn hmax hsel, bifBody_unknown env hname]
  simp only [bifUnknown, run_bind, run_setAlias, andThen_ok, run_bifError]
  exact bifResult_failed env mods c!"unknown" (bifText mods name src) _ (counted sh) (entered sh inh) _ rfl rfl rfl rfl rfl rfl

/-- **C42 (no `;`), in the main pass.** A BIF without `;` is an error: no output, and one error is recorded. Missing from the
full statement: the second pass (`C42_refuted`). -/
theorem C42_malformed_partial (env : Env) (R : Rec) (sh : Shared) (inh : Inherit) (body : Str)
    (hb : ';' ∉ body) (hmax : sh.count < sh.max) :
    runBif env R sh inh (c!"{:" ++ body ++ c!":}") [] =
      match showErrors sh with
      | none => .panic .unwrap
      | some _ => .ok [] (pushError (counted sh) (oneLine (c!"The delimiter was not found: " ++ (c!"{:" ++ body ++ c!":}"))))
          { inh with bifCount := sh.count + 1 } := by
  unfold runBif
  rw [if_neg (by omega)]
  unfold bifParse
  have : bifSplit (c!"{:" ++ body ++ c!":}") = none := by
    unfold bifSplit
    rw [stripPrefixSuffix_mid, (splitOnce_eq_none (by decide)).2]
    · rfl
    · intro h
      exact hb (h.subset (by simp))
  rw [this]
  rfl

/-- What an error leaves: the list of errors is longer by one, `has_error` is set, and the status is unchanged. -/
theorem C42_recorded (env : Env) (mods name raw msg x : Str) (sh sh' : Shared) (inh inh' : Inherit) (a : List Value) (o : Obj)
    (hobj : sh.schema = .obj o) (herr : sh.schema.index c!"__error" = .arr a)
    (h : failed env mods name raw msg sh inh = .ok x sh' inh') :
    (∃ line, sh'.schema.index c!"__error" = .arr (a ++ [.str line])) ∧ sh'.hasError = true ∧
    sh'.statusCode = sh.statusCode ∧ sh'.exit = sh.exit ∧ x = trim (if '^' ∈ mods then c!"&#9224" else []) := by
  unfold failed at h
  split at h
  · simp at h
  · simp only [finish, PRes.ok.injEq] at h
    obtain ⟨h1, h2, _⟩ := h
    rw [← h2, ← h1]
    refine ⟨⟨errorLine (env.localTime sh.w.tick) { msg := msg, name := name, file := inh.currentFile, src := raw }, ?_⟩, rfl, rfl, rfl, by simp⟩
    unfold pushError
    rw [hobj] at herr
    have : Obj.get? c!"__error" o = some (.arr a) := by
      simp only [Value.index, Value.get?] at herr
      cases hg : Obj.get? c!"__error" o with
      | none => rw [hg] at herr; simp at herr
      | some v => rw [hg] at herr; simpa using herr
    simp only [hobj, this]
    simp only [Value.index, Value.get?, Obj.get?_insert_self, Option.getD_some]

/-- **C42: the full statement is false.** A BIF without `;` inside an uncached part of a cached block is printed as it is. -/
theorem C42_refuted :
    Sample.outOf (Sample.go [(c!"x", .str c!"X")] c!"[{:cache; /120/ >> {:!cache; {:foo:} {:foo;:} {:;x:} :} :}]") =
      some (c!"[{:foo:}  X]", c!"200") := by
  decide +kernel

/-- The premises are met. -/
example : (c!"code", c!"^+") ∈ accepts ∧ Mods c!"!" ∧ '!' ∉ c!"^+" ∧ (∀ acc, (c!"foo", acc) ∉ accepts) ∧
    Sample.outOf (Sample.go [] c!"[{:!code; a :}{:foo; a :}{:foo:}{:lang;:}]") = some (c!"[en]", c!"200") := by
  refine ⟨by decide, by unfold Mods; decide, by decide, ?_, by decide +kernel⟩
  intro acc h
  have : c!"foo" ∈ accepts.map (fun p => p.1) := List.mem_map.2 ⟨_, h, rfl⟩
  exact absurd this (by decide)

end Nts
