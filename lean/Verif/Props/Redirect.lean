import Verif.Lemmas.Eval
import Verif.Lemmas.RunInh
import Verif.Spec.Sample
/-
C41: redirect.
-/
set_option autoImplicit false
namespace Nts
open Spec

/-- A BIF that fails after its output was already set. -/
def Spec.failedOut (env : Env) (mods name raw msg out : Str) (sh : Shared) (inh : Inherit) : PRes :=
  match showErrors sh with
  | none => .panic .unwrap
  | some _ => finish (decide ('^' ∈ mods)) out
      (pushError { sh with w := { sh.w with tick := sh.w.tick + 1 } }
        (errorLine (env.localTime sh.w.tick) { msg := msg, name := name, file := inh.currentFile, src := raw })) inh

/-- The documented redirections: `Redirect p code status page`: with parameters `p` (`none`: no `>>`) and code `code` the
status is `status` and the JavaScript page (if any) is `page`. -/
inductive Spec.Redirect : Option Str → Str → Str → Option Str → Prop
  | http {status url : Str} : status ∈ [c!"301", c!"302", c!"303", c!"307", c!"308"] → url ≠ [] →
      Redirect (some status) url status none
  | reloadTop (code : Str) : Redirect (some c!"js:reload:top") code c!"200"
      (some c!"<!DOCTYPE html><script>top.location.href=self.location.href.split('#')[0];</script>")
  | reloadSelf (code : Str) : Redirect (some c!"js:reload:self") code c!"200"
      (some c!"<!DOCTYPE html><script>self.location.href=self.location.href.split('#')[0]</script>")
  | top {url : Str} : url ≠ [] → Redirect (some c!"js:redirect:top") url c!"200"
      (some (c!"<!DOCTYPE html><script>top.location.href='" ++ url ++ c!"';</script>"))
  | self {url : Str} : url ≠ [] → Redirect (some c!"js:redirect:self") url c!"200"
      (some (c!"<!DOCTYPE html><script>self.location.href='" ++ url ++ c!"';</script>"))
  | topOnly : Redirect none c!"js:reload:top" c!"200"
      (some c!"<!DOCTYPE html><script>top.location.href=self.location.href.split('#')[0];</script>")
  | selfOnly : Redirect none c!"js:reload:self" c!"200"
      (some c!"<!DOCTYPE html><script>self.location.href=self.location.href.split('#')[0]</script>")

/-- The output: nothing, or inside a cached block the redirect itself, for the second pass. -/
def Spec.uncached (inh : Inherit) (raw : Str) : Str := if inh.inCache then c!"{:!cache;" ++ raw ++ c!":}" else []

/-- The state after a redirect. -/
def Spec.redirected (sh : Shared) (status : Str) (page : Option Str) (code : Str) : Shared :=
  { sh with
    statusCode := status, statusParam := code, statusText := statusTextOf status, exit := true
    redirectJs := page.getD sh.redirectJs }

theorem redirTop_eq (code : Str) : replaceAll c!"{}" code redirTop =
    c!"<!DOCTYPE html><script>top.location.href='" ++ code ++ c!"';</script>" := by
  unfold replaceAll redirTop
  rw [if_neg (by decide)]
  simp only [replGo, stripPrefix?]
  rfl

theorem redirSelf_eq (code : Str) : replaceAll c!"{}" code redirSelf =
    c!"<!DOCTYPE html><script>self.location.href='" ++ code ++ c!"';</script>" := by
  unfold replaceAll redirSelf
  rw [if_neg (by decide)]
  simp only [replGo, stripPrefix?]
  rfl

theorem redirectPlan_ok {p : Option Str} {code status : Str} {page : Option Str} (h : Redirect p code status page) :
    redirectPlan p.isSome (p.getD []) code = .ok (status, page) := by
  cases h with
  | http h1 h2 =>
    simp only [List.mem_cons, List.not_mem_nil, or_false] at h1
    have hc : code.isEmpty = false := by cases code with | nil => exact absurd rfl h2 | cons => rfl
    rcases h1 with rfl | rfl | rfl | rfl | rfl <;> simp [redirectPlan, hc]
  | reloadTop => simp [redirectPlan, redirReloadTop]
  | reloadSelf => simp [redirectPlan, redirReloadSelf]
  | top h2 =>
    have hc : code.isEmpty = false := by cases code with | nil => exact absurd rfl h2 | cons => rfl
    simp [redirectPlan, hc, redirTop_eq]
  | self h2 =>
    have hc : code.isEmpty = false := by cases code with | nil => exact absurd rfl h2 | cons => rfl
    simp [redirectPlan, hc, redirSelf_eq]
  | topOnly => simp [redirectPlan, redirReloadTop]
  | selfOnly => simp [redirectPlan, redirReloadSelf]

theorem redirectPlan_error {p : Option Str} {code : Str} (h : ∀ status page, ¬ Redirect p code status page)
    (hx : p = none ∨ ¬ (c!"js:reload:self" <:+: code ∧ c!"js:reload:top" <:+: code)) :
    ∃ msg, redirectPlan p.isSome (p.getD []) code = .error msg := by
  cases hr : redirectPlan p.isSome (p.getD []) code with
  | error msg => exact ⟨msg, rfl⟩
  | ok r =>
    exfalso
    unfold redirectPlan at hr
    cases p with
    | some q =>
      simp only [Option.isSome_some, if_true, Option.getD_some] at hr
      by_cases h1 : q ∈ [c!"301", c!"302", c!"303", c!"307", c!"308"]
      · cases code with
        | nil =>
          rw [if_pos (by simpa [or_assoc] using h1)] at hr
          simp at hr
        | cons c r => exact h _ _ (.http h1 (by simp))
      · rw [if_neg (by simpa [or_assoc] using h1)] at hr
        by_cases h2 : q = c!"js:reload:top"
        · subst h2; exact h _ _ (.reloadTop _)
        rw [if_neg h2] at hr
        by_cases h3 : q = c!"js:reload:self"
        · subst h3; exact h _ _ (.reloadSelf _)
        rw [if_neg h3] at hr
        by_cases h4 : q = c!"js:redirect:top"
        · subst h4
          cases code with
          | nil => simp at hr
          | cons c r => exact h _ _ (.top (by simp))
        rw [if_neg h4] at hr
        by_cases h5 : q = c!"js:redirect:self"
        · subst h5
          cases code with
          | nil => simp at hr
          | cons c r => exact h _ _ (.self (by simp))
        rw [if_neg h5] at hr
        split at hr
        · simp at hr
        · next h6 =>
          rcases hx with hx | hx
          · simp at hx
          · apply hx
            simp only [Bool.or_eq_true, Bool.not_eq_true', not_or, Bool.not_eq_false] at h6
            exact ⟨(contains_iff (by decide)).1 h6.1, (contains_iff (by decide)).1 h6.2⟩
    | none =>
      simp only [Option.isSome_none, Bool.false_eq_true, if_false] at hr
      by_cases h1 : code = c!"js:reload:top"
      · subst h1; exact h _ _ .topOnly
      rw [if_neg h1] at hr
      by_cases h2 : code = c!"js:reload:self"
      · subst h2; exact h _ _ .selfOnly
      rw [if_neg h2] at hr
      simp at hr

theorem named_redirect : Named c!"redirect" := by
  refine ⟨by decide, ?_⟩
  intro c r hc
  injection hc with h1 h2
  subst h1
  decide

/-- What `redirect` does after its parameters and its code have been evaluated. -/
theorem redirect_run (env : Env) (R : Rec) (sh sh1 sh2 : Shared) (inh inh1 inh2 : Inherit) (mods src only c params code : Str)
    (p : Option Str) (hm : Mods mods) (hf : '&' ∉ mods ∧ '!' ∉ mods ∧ '+' ∉ mods) (hmax : sh.count < sh.max)
    (hsel : Selected inh mods c!"redirect" only) (hp : Parts src p c)
    (hev : evalParams R (counted sh) (entered sh inh) c!"redirect" (p.getD []) only = .ok params sh1 inh1)
    (hfl : flagsOf sh1 (p.getD []) = [])
    (hcode : nested R false sh1 inh1 c!"redirect" c only = .ok code sh2 inh2) :
    runBif env R sh inh (bifText mods c!"redirect" src) only =
      match redirectPlan p.isSome params code with
      | .error msg => failedOut env mods c!"redirect" (bifText mods c!"redirect" src) msg
          (uncached inh (bifText mods c!"redirect" src)) sh2 inh2
      | .ok (status, page) => finish (decide ('^' ∈ mods)) (uncached inh (bifText mods c!"redirect" src))
          (redirected sh2 status page code) inh2 := by
  rw [runBif_text env R sh inh mods c!"redirect" src only hm named_redirect hmax hsel]
  have hbody : bifBody env c!"redirect" = bifRedirect := rfl
  rw [hbody]
  unfold bifRedirect
  simp only [run_bind, run_denyMods]
  rw [if_neg (by simp [start, hf.1, hf.2.1, hf.2.2])]
  simp only [andThen_ok, outUncached, run_bind, run_getSt, run_setOut]
  rw [run_extract R hp _ rfl rfl rfl rfl]
  change bifResult env (Res.andThen (match evalParams R (counted sh) (entered sh inh) c!"redirect" (p.getD []) only with
    | .ok x sh' inh' => _
    | .panic p => _
    | .oof => _) _) = _
  rw [hev]
  simp only [andThen_ok, run_denyFlags, hfl, List.isEmpty_nil, if_true]
  rw [run_parseCode_nested R _ _ rfl rfl]
  change bifResult env (Res.andThen (match nested R false sh1 inh1 c!"redirect" c only with
    | .ok x sh' inh' => _
    | .panic p => _
    | .oof => _) _) = _
  rw [hcode]
  simp only [andThen_ok, run_getSt]
  have hneg : decide ('!' ∈ mods) = false := by simpa using hf.2.1
  cases hplan : redirectPlan p.isSome params code with
  | error msg =>
    simp only [run_bifError]
    unfold failedOut
    simp only [bifResult]
    cases showErrors sh2 with
    | none => rfl
    | some b => rfl
  | ok r =>
    obtain ⟨status, page⟩ := r
    cases page with
    | none =>
      simp only [run_bind, run_pure', andThen_ok, run_op_setStatus, step, toRes_ok, run_op_setExit]
      simp only [bifResult, bifFinish, start, hneg, Bool.not_false]
      rfl
    | some x =>
      simp only [run_bind, run_op_setRedirectJs, andThen_ok, run_op_setStatus, step, toRes_ok, run_op_setExit]
      simp only [bifResult, bifFinish, start, hneg, Bool.not_false]
      rfl

/-- **C41 (accepted).** A documented redirection, whatever its parameters and code were written as (they are evaluated to
`params` and `code`), sets the status, the parameter and the page and stops the evaluation; nothing is printed (inside a
cached block the redirect itself is kept, for the second pass). -/
theorem C41_accepted (env : Env) (R : Rec) (sh sh1 sh2 : Shared) (inh inh1 inh2 : Inherit) (mods src only c params code status : Str)
    (p page : Option Str) (hm : Mods mods) (hf : '&' ∉ mods ∧ '!' ∉ mods ∧ '+' ∉ mods) (hmax : sh.count < sh.max)
    (hsel : Selected inh mods c!"redirect" only) (hp : Parts src p c)
    (hev : evalParams R (counted sh) (entered sh inh) c!"redirect" (p.getD []) only = .ok params sh1 inh1)
    (hfl : flagsOf sh1 (p.getD []) = [])
    (hcode : nested R false sh1 inh1 c!"redirect" c only = .ok code sh2 inh2)
    (hr : Redirect (p.map (fun _ => params)) code status page) :
    runBif env R sh inh (bifText mods c!"redirect" src) only =
      finish (decide ('^' ∈ mods)) (uncached inh (bifText mods c!"redirect" src)) (redirected sh2 status page code) inh2 := by
  rw [redirect_run env R sh sh1 sh2 inh inh1 inh2 mods src only c params code p hm hf hmax hsel hp hev hfl hcode]
  have := redirectPlan_ok hr
  cases p with
  | none =>
    simp only [Option.map_none, Option.isSome_none] at this ⊢
    have e : ∀ x, redirectPlan false x code = redirectPlan false [] code := fun x => by simp [redirectPlan]
    rw [e, show redirectPlan false [] code = _ from this]
  | some q =>
    simp only [Option.map_some, Option.isSome_some, Option.getD_some] at this ⊢
    rw [this]

/-- **C41 (rejected).** Anything else is an error: status, exit and page stay as they were (after the evaluation of
parameters and code), and one error is recorded. Missing from the full statement: see `C41_refuted`. -/
theorem C41_rejected_partial (env : Env) (R : Rec) (sh sh1 sh2 : Shared) (inh inh1 inh2 : Inherit)
    (mods src only c params code : Str)
    (p : Option Str) (hm : Mods mods) (hf : '&' ∉ mods ∧ '!' ∉ mods ∧ '+' ∉ mods) (hmax : sh.count < sh.max)
    (hsel : Selected inh mods c!"redirect" only) (hp : Parts src p c)
    (hev : evalParams R (counted sh) (entered sh inh) c!"redirect" (p.getD []) only = .ok params sh1 inh1)
    (hfl : flagsOf sh1 (p.getD []) = [])
    (hcode : nested R false sh1 inh1 c!"redirect" c only = .ok code sh2 inh2)
    (hr : ∀ status page, ¬ Redirect (p.map (fun _ => params)) code status page)
    (hx : p = none ∨ ¬ (c!"js:reload:self" <:+: code ∧ c!"js:reload:top" <:+: code)) :
    ∃ msg, runBif env R sh inh (bifText mods c!"redirect" src) only =
      failedOut env mods c!"redirect" (bifText mods c!"redirect" src) msg
        (uncached inh (bifText mods c!"redirect" src)) sh2 inh2 := by
  rw [redirect_run env R sh sh1 sh2 inh inh1 inh2 mods src only c params code p hm hf hmax hsel hp hev hfl hcode]
  obtain ⟨msg, h⟩ := redirectPlan_error hr (by cases p with | none => exact .inl rfl | some q => exact hx.imp (by simp) id)
  refine ⟨msg, ?_⟩
  cases p with
  | none =>
    simp only [Option.map_none, Option.isSome_none] at h ⊢
    have e : ∀ x, redirectPlan false x code = redirectPlan false [] code := fun x => by simp [redirectPlan]
    rw [e, show redirectPlan false [] code = _ from h]
  | some q =>
    simp only [Option.map_some, Option.isSome_some, Option.getD_some] at h ⊢
    rw [h]

/-- What `failedOut` leaves: status, exit and redirection as they were. -/
theorem C41_rejected_state (env : Env) (mods name raw msg out x : Str) (sh sh' : Shared) (inh inh' : Inherit)
    (h : failedOut env mods name raw msg out sh inh = .ok x sh' inh') :
    sh'.statusCode = sh.statusCode ∧ sh'.statusText = sh.statusText ∧ sh'.statusParam = sh.statusParam ∧
    sh'.exit = sh.exit ∧ sh'.redirectJs = sh.redirectJs ∧ sh'.hasError = true := by
  unfold failedOut at h
  split at h
  · simp at h
  · simp only [finish, PRes.ok.injEq] at h
    rw [← h.2.1]
    unfold pushError
    dsimp only
    exact ⟨rfl, rfl, rfl, rfl, rfl, rfl⟩

/-- **C41: the full statement is false.** An undocumented type is accepted when the code contains both `js:reload:self` and
`js:reload:top`: the evaluation stops there (the text after it is missing) without
any redirection. -/
theorem C41_refuted :
    Sample.outOf (Sample.go [(c!"x", .str c!"X")] c!"a {:redirect; foo >> js:reload:self js:reload:top :} b {:;x:}") =
      some (c!"a ", c!"200") ∧
    Sample.outOf (Sample.go [(c!"x", .str c!"X")] c!"a {:redirect; foo >> js:reload:self :} b {:;x:}") =
      some (c!"a  b X", c!"200") ∧
    (∀ status page, ¬ Redirect (some c!"foo") c!"js:reload:self js:reload:top" status page) := by
  refine ⟨by decide +kernel, by decide +kernel, ?_⟩
  intro status page h
  generalize hf : (some c!"foo") = q at h
  cases h with
  | http h1 _ => injection hf with hf; subst hf; exact absurd h1 (by decide)
  | reloadTop => exact absurd hf (by decide)
  | reloadSelf => exact absurd hf (by decide)
  | top => exact absurd hf (by decide)
  | self => exact absurd hf (by decide)

/-- The premises are met by real redirects. -/
example : Sample.outOf (Sample.go [] c!"{:redirect; 301 >> /page :} {:;x:}") = some (c!"301 Moved Permanently\n/page", c!"301") ∧
    Redirect (some c!"301") c!"/page" c!"301" none ∧ Redirect none c!"js:reload:top" c!"200" (some redirReloadTop) :=
  ⟨by decide +kernel, .http (by decide) (by decide), .topOnly⟩

end Nts
