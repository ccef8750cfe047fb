import Verif.Spec.Upline
import Verif.Lemmas.Blind
import Verif.Lemmas.BifText
import Verif.Props.Output
import Verif.Props.Include
/-
C110: the modifier `^` changes nothing but white space.
-/
set_option autoImplicit false
namespace Nts
open Spec

theorem blindAt_uncached {R : Rec} {u : Bool} {raw : Str} {bad : BifS → Bool} {rest : Prog Unit} {s : St} (hs : s.inh.inCache = false)
    (hbad : ∀ b : BifS, bad { b with modUpline := u } = bad b) (h : Blind R u raw rest) :
    BlindAt R u raw (do denyMods bad; outUncached; rest) s := by
  refine blindAt_bind (blind_denyMods bad hbad s) (fun _ s' hs' => ?_)
  have hinh : s'.inh = s.inh := by
    rw [run_denyMods] at hs'
    split at hs'
    · cases hs'
    · injection hs' with _ h; rw [← h]
  refine blindAt_bind ?_ (fun _ s'' _ => h s'')
  unfold BlindAt outUncached
  simp only [run_bind, run_getSt, andThen_ok]
  have h1 : (rewritten u raw s').inh.inCache = false := by show s'.inh.inCache = false; rw [hinh, hs]
  have h2 : s'.inh.inCache = false := by rw [hinh, hs]
  rw [h1, h2]
  rfl

theorem blindAt_exit {R : Rec} {u : Bool} {raw : Str} {s : St} (hs : s.inh.inCache = false) : BlindAt R u raw bifExit s := by
  unfold bifExit
  refine blindAt_uncached hs (fun _ => rfl) ?_
  repeat' blind_mid
theorem blindAt_moveto {R : Rec} {u : Bool} {raw : Str} {env : Env} {s : St} (hs : s.inh.inCache = false) :
    BlindAt R u raw (bifMoveto env) s := by
  unfold bifMoveto
  refine blindAt_uncached hs (fun _ => rfl) ?_
  repeat' blind_mid
theorem blindAt_redirect {R : Rec} {u : Bool} {raw : Str} {s : St} (hs : s.inh.inCache = false) : BlindAt R u raw bifRedirect s := by
  unfold bifRedirect
  refine blindAt_uncached hs (fun _ => rfl) ?_
  repeat' blind_mid


theorem splitSrc_negate (b : BifS) : (splitSrc b).modNegate = b.modNegate := by
  unfold splitSrc
  split <;> rfl

theorem blindAt_cache {R : Rec} {u : Bool} {raw : Str} {env : Env} {s : St} (hs : s.b.modNegate = true → s.inh.inCache = false) :
    BlindAt R u raw (bifCache env) s := by
  unfold bifCache
  refine blindAt_bind (blind_denyMods _ (fun _ => rfl) s) (fun _ s1 h1 => ?_)
  have e1 : s1 = s := by
    rw [run_denyMods] at h1
    split at h1
    · cases h1
    · injection h1 with _ h; exact h.symm
  subst e1
  refine blindAt_bind (blind_extract false s1) (fun _ s2 h2 => ?_)
  have e2 := (extractParamsCode_ok h2).2.2.2.2.2.1 rfl
  refine blindAt_bind (blind_denyFlgParams s2) (fun _ s3 h3 => ?_)
  have e3 : s3 = s2 := by
    rw [run_denyFlgParams] at h3
    split at h3
    · cases h3
    · injection h3 with _ h; exact h.symm
  have hs3 : s3.b.modNegate = true → s3.inh.inCache = false := by
    intro h
    rw [e3, e2] at h ⊢
    exact hs ((splitSrc_negate _).symm.trans h)
  have hb : ∀ q : Prog Unit, Blind R u raw q → BlindAt R u raw
      (if s3.b.modNegate = true then (if s3.inh.inCache = true then setOut s3.raw
        else do
          let x ← childParse s3.b.code s3.b.modScope
          setOut x) else q) s3 := by
    intro q hq
    split
    · next h =>
      rw [hs3 h, if_neg (by simp)]
      exact blind_bind (blind_child _ _) (fun _ => blind_setOut _) s3
    · exact hq s3
  have hraw : ∀ q : Prog Unit,
      (if s3.b.modNegate = true then (if s3.inh.inCache = true then setOut raw
        else do
          let x ← childParse s3.b.code s3.b.modScope
          setOut x) else q) =
      (if s3.b.modNegate = true then (if s3.inh.inCache = true then setOut s3.raw
        else do
          let x ← childParse s3.b.code s3.b.modScope
          setOut x) else q) := by
    intro q
    split
    · next h =>
      rw [hs3 h, if_neg (by simp), if_neg (by simp)]
    · rfl
  unfold BlindAt
  simp only [run_bind, run_getSt, andThen_ok]
  refine Eq.trans (congrArg (fun p => run R p (rewritten u raw s3)) (hraw _)) (hb _ ?_)
  repeat' (first | with_reducible exact blind_cacheLookup _ _ _ _ _ | blind_mid)

theorem blindAt_ite {R : Rec} {u : Bool} {raw : Str} {c : Prop} [Decidable c] {p q : Prog Unit} {s : St} (h1 : c → BlindAt R u raw p s)
    (h2 : ¬ c → BlindAt R u raw q s) : BlindAt R u raw (if c then p else q) s := by
  by_cases h : c
  · rw [if_pos h]; exact h1 h
  · rw [if_neg h]; exact h2 h

/-- What the body does does not depend on how the BIF is written. -/
theorem blind_body (env : Env) (R : Rec) (u : Bool) (raw name : Str) (s : St) (hneutral : name ≠ c!"neutral")
    (hflg : name = c!"flg" → u = s.b.modUpline)
    (hcache : s.inh.inCache = true → name ≠ c!"exit" ∧ name ≠ c!"moveto" ∧ name ≠ c!"redirect" ∧
      (name = c!"cache" → s.b.modNegate = false)) :
    BlindAt R u raw (bifBody env name) s := by
  have hno : ∀ {x : Str}, (s.inh.inCache = true → name ≠ x) → name = x → s.inh.inCache = false := by
    intro x h e
    cases hc : s.inh.inCache with
    | false => rfl
    | true => exact absurd e (h hc)
  unfold bifBody
  refine blindAt_ite (fun _ => blind_var env s) (fun _ => ?_)
  refine blindAt_ite (fun _ => blind_allow env s) (fun _ => ?_)
  refine blindAt_ite (fun _ => blind_cond _ s) (fun _ => ?_)
  refine blindAt_ite (fun _ => blind_cond _ s) (fun _ => ?_)
  refine blindAt_ite (fun h => ?_) (fun _ => ?_)
  · refine blindAt_cache (fun hn => ?_)
    cases hc : s.inh.inCache with
    | false => rfl
    | true => rw [(hcache hc).2.2.2 h] at hn; cases hn
  refine blindAt_ite (fun _ => blind_coalesce s) (fun _ => ?_)
  refine blindAt_ite (fun _ => blind_code s) (fun _ => ?_)
  refine blindAt_ite (fun _ => blind_cmp _ s) (fun _ => ?_)
  refine blindAt_ite (fun _ => blind_count env s) (fun _ => ?_)
  refine blindAt_ite (fun _ => blind_data env s) (fun _ => ?_)
  refine blindAt_ite (fun _ => blind_date env s) (fun _ => ?_)
  refine blindAt_ite (fun _ => blind_declare s) (fun _ => ?_)
  refine blindAt_ite (fun _ => blind_cond _ s) (fun _ => ?_)
  refine blindAt_ite (fun _ => blind_each s) (fun _ => ?_)
  refine blindAt_ite (fun _ => blind_else s) (fun _ => ?_)
  refine blindAt_ite (fun _ => blind_eval env s) (fun _ => ?_)
  refine blindAt_ite (fun h => blindAt_exit (hno (fun hc => (hcache hc).1) h)) (fun _ => ?_)
  refine blindAt_ite (fun _ => blind_fetch env s) (fun _ => ?_)
  refine blindAt_ite (fun _ => blind_cond _ s) (fun _ => ?_)
  refine blindAt_ite (fun h => ?_) (fun _ => ?_)
  · have hu := hflg h
    unfold bifFlg
    refine blindAt_bind ?_ (fun _ s1 _ => ?_)
    · unfold BlindAt
      rw [run_denyMods, run_denyMods, hu]
      show (if (s.b.modFilter || s.b.modNegate || s.b.modUpline || s.b.modScope) = true then _ else _) = _
      split <;> rfl
    · refine (?_ : Blind R u raw _) s1
      repeat' blind_mid
  refine blindAt_ite (fun _ => blind_for env s) (fun _ => ?_)
  refine blindAt_ite (fun _ => blind_hash env s) (fun _ => ?_)
  refine blindAt_ite (fun _ => blind_include env s) (fun _ => ?_)
  refine blindAt_ite (fun _ => blind_join env s) (fun _ => ?_)
  refine blindAt_ite (fun _ => blind_lang s) (fun _ => ?_)
  refine blindAt_ite (fun _ => blind_locale env s) (fun _ => ?_)
  refine blindAt_ite (fun h => blindAt_moveto (hno (fun hc => (hcache hc).2.1) h)) (fun _ => ?_)
  refine blindAt_ite (fun h => absurd h hneutral) (fun _ => ?_)
  refine blindAt_ite (fun _ => blind_param env s) (fun _ => ?_)
  refine blindAt_ite (fun _ => blind_rand env s) (fun _ => ?_)
  refine blindAt_ite (fun h => blindAt_redirect (hno (fun hc => (hcache hc).2.2.1) h)) (fun _ => ?_)
  refine blindAt_ite (fun _ => blind_replace s) (fun _ => ?_)
  refine blindAt_ite (fun _ => blind_cmp _ s) (fun _ => ?_)
  refine blindAt_ite (fun _ => blind_snippet env s) (fun _ => ?_)
  refine blindAt_ite (fun _ => blind_snippet env s) (fun _ => ?_)
  refine blindAt_ite (fun _ => blind_sum env s) (fun _ => ?_)
  refine blindAt_ite (fun _ => blind_trans env s) (fun _ => ?_)
  refine blindAt_ite (fun _ => blind_obj env s) (fun _ => ?_)
  refine blindAt_ite (fun _ => blind_debug env s) (fun _ => ?_)
  exact blind_unknown s


/-- The error a body ends with quotes the BIF as it is written. -/
theorem rewritten_result (env : Env) (u : Bool) (raw : Str) (r : Res Unit) (s0 : St) (hkeep : r.Post (SameBif s0))
    (hsrc : ∀ e s, r = .err e s → e.src = s0.raw) :
    SameButMark s0.b.modUpline u s0.raw raw (bifResult env r) (bifResult env (r.rewritten u raw)) := by
  have hne : ∀ x : Str, (!x.isEmpty) = decide (x ≠ []) := by intro x; cases x <;> rfl
  cases r with
  | ok a s =>
    have hup : s.b.modUpline = s0.b.modUpline := SameBif.modUpline hkeep
    simp only [Res.rewritten, bifResult, bifFinish, rewritten, hup]
    exact .shown s.b.out s.sh _ (hne _) (hne _)
  | err e s =>
    have hup : s.b.modUpline = s0.b.modUpline := SameBif.modUpline hkeep
    have he := hsrc e s rfl
    simp only [Res.rewritten, bifResult, rewritten]
    cases showErrors s.sh with
    | none => exact .panic _
    | some b =>
      simp only [bifFinish, hup]
      have := SameButMark.failed (up := s0.b.modUpline) (up' := u) (raw := s0.raw) (raw' := raw) s.b.out
        (env.localTime s.sh.w.tick) e.name e.msg e.file { s.sh with w := { s.sh.w with tick := s.sh.w.tick + 1 } }
        { s.inh with lastBifOut := !s.b.out.isEmpty, lastCoalesceOut := !s.b.out.isEmpty } (hne _) (hne _)
      unfold errorLine
      rw [he]
      exact this
  | panic p => exact .panic _
  | oof => exact .oof

/-- **C110.** The modifier `^` changes nothing of what a BIF does (its output, the state it leaves, whether it panics), except
that the output comes after the mark that removes the white space before it (C69), and that reports of errors quote the BIF as
it is written.  (`neutral` shows itself, as do some BIFs in cached blocks; `flg` refuses `^`.) -/
theorem C110_upline (env : Env) (R : Rec) (sh : Shared) (inh : Inherit) (mods mods' name src only : Str)
    (hm : Mods mods) (hm' : Mods mods') (hn : Named name) (hsel : Selected inh mods name only) (hsel' : Selected inh mods' name only)
    (hsame : SameMods mods mods') (hshow : ¬ ShowsText inh.inCache mods name)
    (hflg : name = c!"flg" → ('^' ∈ mods ↔ '^' ∈ mods')) :
    SameButMark (decide ('^' ∈ mods)) (decide ('^' ∈ mods')) (bifText mods name src) (bifText mods' name src)
      (runBif env R sh inh (bifText mods name src) only) (runBif env R sh inh (bifText mods' name src) only) := by
  by_cases hmax : sh.count < sh.max
  · rw [runBif_text env R sh inh mods name src only hm hn hmax hsel, runBif_text env R sh inh mods' name src only hm' hn hmax hsel']
    have hstart : start sh inh mods' name src only =
        rewritten (decide ('^' ∈ mods')) (bifText mods' name src) (start sh inh mods name src only) := by
      unfold start rewritten
      have h1 : decide ('&' ∈ mods') = decide ('&' ∈ mods) := by simp [hsame '&' (by decide)]
      have h2 : decide ('!' ∈ mods') = decide ('!' ∈ mods) := by simp [hsame '!' (by decide)]
      have h3 : decide ('+' ∈ mods') = decide ('+' ∈ mods) := by simp [hsame '+' (by decide)]
      rw [h1, h2, h3]
    have hall := fun u raw hu => blind_body env R u raw name (start sh inh mods name src only) (fun h => hshow (.inl h)) hu
      (fun hc => ⟨fun h => hshow (.inr ⟨hc, .inl h⟩), fun h => hshow (.inr ⟨hc, .inr (.inl h)⟩),
        fun h => hshow (.inr ⟨hc, .inr (.inr (.inl h))⟩),
        fun h => decide_eq_false (fun hx => hshow (.inr ⟨hc, .inr (.inr (.inr ⟨h, hx⟩))⟩))⟩)
    have hb := hall (decide ('^' ∈ mods')) (bifText mods' name src) (fun h => by show _ = decide _; simp [hflg h])
    have hself := hall (decide ('^' ∈ mods)) (bifText mods name src) (fun _ => rfl)
    unfold BlindAt at hb hself
    have hsrc : ∀ e s, run R (bifBody env name) (start sh inh mods name src only) = .err e s →
        e.src = (start sh inh mods name src only).raw := by
      intro e s he
      have h1 : rewritten (decide ('^' ∈ mods)) (bifText mods name src) (start sh inh mods name src only) =
        start sh inh mods name src only := rfl
      rw [h1, he] at hself
      simp only [Res.rewritten, Res.err.injEq] at hself
      have := hself.1
      rw [this]
      rfl
    rw [hstart, hb]
    exact rewritten_result env _ _ _ (start sh inh mods name src only) (run_sameBif R env name _) hsrc
  · have h : ∀ raw, runBif env R sh inh raw only = .panic .budget := by
      intro raw
      unfold runBif
      rw [if_pos (by omega)]
    rw [h, h]
    exact .panic _


theorem sameButMark_ok {up up' : Bool} {raw raw' x : Str} {sh : Shared} {inh : Inherit} {r' : PRes}
    (h : SameButMark up up' raw raw' (.ok x sh inh) r') :
    (∃ y, x = marked up y ∧ r' = .ok (marked up' y) sh inh) ∨ sh.hasError = true := by
  generalize hr : PRes.ok x sh inh = r at h
  cases h with
  | shown y sh inh _ _ =>
    injection hr with h1 h2 h3
    subst h1 h2 h3
    exact .inl ⟨y, rfl, rfl⟩
  | failed y time name msg file sh inh _ _ =>
    injection hr with h1 h2 h3
    subst h2
    exact .inr rfl
  | panic p => cases hr
  | oof => cases hr

/-- **C110 (in a template).** In a template a BIF that reports no error can be given the modifier `^`, or it can be taken away: the rest
of the template has the same output and leaves the same state; the output is another only in the mark before what the BIF
shows. -/
theorem C110_template (env : Env) (R : Rec) (sh sh' : Shared) (inh inh' : Inherit) (e : Bool) (mods mods' name src s only y : Str)
    (hm : Mods mods) (hm' : Mods mods') (hn : Named name) (hsel : Selected inh mods name only) (hsel' : Selected inh mods' name only)
    (hsame : SameMods mods mods') (hshow : ¬ ShowsText inh.inCache mods name)
    (hflg : name = c!"flg" → ('^' ∈ mods ↔ '^' ∈ mods'))
    (hb : IsBif (bifText mods name src)) (hb' : IsBif (bifText mods' name src))
    (herr : ∀ x sh1 inh1, runBif env R sh inh (bifText mods name src) only = .ok x sh1 inh1 → sh1.hasError = false)
    (h : Produces env R only (bifText mods name src ++ s) sh inh e y sh' inh') :
    ∃ y', Produces env R only (bifText mods' name src ++ s) sh inh e y' sh' inh' ∧
      (y' = y ∨ ∃ x z, y = marked (decide ('^' ∈ mods)) x ++ z ∧ y' = marked (decide ('^' ∈ mods')) x ++ z) := by
  rcases produces_block (.inl hb) h with ⟨hx, rfl, rfl, rfl, rfl⟩ | ⟨hx, hc, h1⟩ | ⟨hx, _, hc, x, z, sh1, inh1, rfl, h1, h2⟩
  · refine ⟨[], .stop hx ?_, .inl rfl⟩
    obtain ⟨r, hr⟩ := block_opens (.inl hb') s
    rw [← hr]
    exact ⟨[], r, by simp⟩
  · refine ⟨y, ?_, .inl rfl⟩
    rcases hc with hc | hc
    · exact (not_both hb hc).elim
    · exact .skipped hx hb' hc.1 hc.2 h1
  · have h3 := C110_upline env R sh inh mods mods' name src only hm hm' hn hsel hsel' hsame hshow hflg
    rw [h1] at h3
    rcases sameButMark_ok h3 with ⟨v, rfl, hr⟩ | he
    · exact ⟨marked (decide ('^' ∈ mods')) v ++ z, .evaluated hx hb' hc hr h2, .inr ⟨v, z, rfl, rfl⟩⟩
    · rw [herr _ _ _ h1] at he
      cases he


/-! ### cases -/

/-- The hypotheses of `C110_upline` are met, for example by a negated loop-like BIF and the same with `^`. -/
example (env : Env) (R : Rec) (sh : Shared) (inh : Inherit) (src : Str) :
    SameButMark false true (bifText c!"+" c!"each" src) (bifText c!"^+" c!"each" src)
      (runBif env R sh inh (bifText c!"+" c!"each" src) []) (runBif env R sh inh (bifText c!"^+" c!"each" src) []) :=
  C110_upline env R sh inh c!"+" c!"^+" c!"each" src [] (by unfold Mods; decide) (by unfold Mods; decide)
    (by refine ⟨by decide, fun c r h => ?_⟩; injection h with h _; subst h; decide) (.inl rfl) (.inl rfl)
    (by intro c hc; simp [hc]) (by rintro (h | ⟨_, h | h | h | ⟨h, _⟩⟩) <;> exact absurd h (by decide)) (by intro h; exact absurd h (by decide))

set_option maxRecDepth 10000 in
/-- With and without `^`: only the white space before the BIF. -/
example :
    Sample.outOf (Sample.go [(c!"l", .arr [.str c!"1", .str c!"2"])] c!"a  {:^each; l k v >> ({:;v:}) :} b {:else; none :}|") =
      some (c!"a(1)(2) b |", c!"200") ∧
    Sample.outOf (Sample.go [(c!"l", .arr [.str c!"1", .str c!"2"])] c!"a  {:each; l k v >> ({:;v:}) :} b {:else; none :}|") =
      some (c!"a  (1)(2) b |", c!"200") := by decide +kernel

set_option maxRecDepth 10000 in
/-- The exceptions: `neutral` shows how it is written, and `flg` refuses `^`, so that the flag is not set. -/
theorem C110_exceptions :
    Sample.outOf (Sample.go [] c!"a {:^neutral; b :}|") = some (c!"a{:^neutral; b :}|", c!"200") ∧
    Sample.outOf (Sample.go [(c!"x", .str c!"X")] c!"{:code; {:^flg; noparse :} >> {:;x:} :}|") = some (c!"X|", c!"200") ∧
    Sample.outOf (Sample.go [(c!"x", .str c!"X")] c!"{:code; {:flg; noparse :} >> {:;x:} :}|") = some (c!"{:;x:}|", c!"200") := by
  decide +kernel

end Nts
