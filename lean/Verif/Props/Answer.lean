import Verif.Spec.Answer
import Verif.Props.Page
import Verif.Props.Exit
import Verif.Props.Redirect
import Verif.Props.InCache
/-
C93: pages that end early.
-/
set_option autoImplicit false
namespace Nts
open Spec

/-- `Gives x text a`: a page that ends with `x`, the inside of which prints `text`, answers `a`. -/
inductive Spec.Gives : Ending → Str → Answer → Prop
  | exit (l : List Node) (text : Str) : Gives (.exit none l) text ⟨if text = [] then c!"200" else text, [], none⟩
  | exitWith (p : Str) (l : List Node) (text : Str) : Gives (.exit (some p) l) text ⟨p, text, none⟩
  | redirect {p : Option Str} {text status : Str} {page : Option Str} (l : List Node) : Redirect p text status page →
      Gives (.redirect p l) text ⟨status, text, page⟩

/-- The state after the end. -/
def answered (sh : Shared) (a : Answer) : Shared :=
  { sh with
    statusCode := a.status, statusParam := a.param, statusText := statusTextOf a.status, exit := true
    redirectJs := a.page.getD sh.redirectJs }

theorem ending_parts {S : Site} {x : Ending} (h : x.Ok S) : Parts (match x.param with
    | none => c!" " ++ printAll x.body ++ c!" "
    | some p => c!" " ++ p ++ c!" >> " ++ printAll x.body ++ c!" ") x.param (trim (printAll x.body)) := by
  cases hp : x.param with
  | none => exact parts_code h.2
  | some p => exact name_parts (h.1 p hp)

theorem ending_isBif {S : Site} {x : Ending} (h : x.Ok S) : IsBif x.print := by
  have hn : '{' ∉ ([] : Str) ++ x.name ++ c!";" ∧ '}' ∉ ([] : Str) ++ x.name ++ c!";" ∧ ¬ c!"*" <+: ([] : Str) ++ x.name ++ c!";" := by
    cases x <;> (simp only [Ending.name]; exact ⟨by decide, by decide, by decide⟩)
  have hc := cont_all' h.2
  have hg := good_all x.body h.2 _ (cont_blank (c!":}"))
  unfold Ending.print
  refine isBif_text hn.1 hn.2.1 hn.2.2 ?_ ?_
  · cases hp : x.param with
    | none => exact bal_src (a := c!" ") (by decide) (by decide) hc hg
    | some p =>
      have hb := nameOk_braces (h.1 p hp)
      have := bal_src (a := c!" " ++ p ++ c!" >> ") (not_mem_append (not_mem_append (by decide) hb.1) (by decide))
        (not_mem_append (not_mem_append (by decide) hb.2) (by decide)) hc hg
      exact this
  · cases x.param <;> simp

theorem ending_skips {S : Site} {x : Ending} (h : x.Ok S) : Skips c!"*" x.print := by
  unfold Ending.print
  refine skips_bif ?_ ?_
  · cases x with
    | _ =>
      intro k hk
      simpa [Ending.name, List.infix_cons_iff, List.cons_prefix_cons] using hk
  · cases hp : x.param with
    | none => exact skips_append (skips_append (skips_noBrace (by decide)) (skips_all (.inr rfl) _ h.2)) (skips_noBrace (by decide))
    | some p =>
      have hb := nameOk_braces (h.1 p hp)
      exact skips_append (skips_append (skips_noBrace (not_mem_append (not_mem_append (by decide) hb.1) (by decide)))
        (skips_all (.inr rfl) _ h.2)) (skips_noBrace (by decide))

/-- What the end does. -/
theorem ending_run {env : Env} {S : Site} {sh0 : Shared} {sc : Obj} (hexit : sh0.exit = false) (hS : SiteOf env sh0 S) {x : Ending}
    (hok : x.Ok S) {a : Answer} {n : Nat} {m : Mem} {sh : Shared} {inh : Inherit} {b : Nat} (hd : depthAll x.body < n)
    (ha : After S sh0 sc m b [] sh inh) (hin : inh.inCache = false) (hmax : (x.inside S m).2.bifs ≤ sh0.max)
    (hends : Gives x (x.inside S m).1 a) :
    ∃ sh' inh', runBif env (runBlocks env n) sh inh x.print [] = finish false [] (answered sh' a) inh' ∧
      After S sh0 sc (x.inside S m).2 b [] sh' inh' := by
  have hc := ha.counted
  have hcnt : sh.count < sh.max := by
    have := mono_block (plus := false) (mono_all S x.body x.name) { m with bifs := m.bifs + 1 }
    have h2 : (blockOf false (meansAll S x.name x.body) { m with bifs := m.bifs + 1 }).2.bifs ≤ sh0.max := hmax
    rw [ha.hold]
    show m.bifs < sh0.max
    simp only at this
    omega
  obtain ⟨sh2, inh2, h1, h2, _, _⟩ := sound_shown (plus := false) (sound_all (env := env) (sh0 := sh0) (sc := sc) hexit hS x.body hok.2) hok.2 hd hc hmax
  have hplain : ¬ c!"{:" <:+: x.param.getD [] := by
    cases hp : x.param with
    | none => simp
    | some p => exact fun h => (nameOk_braces (hok.1 p hp)).1 (h.subset (by simp))
  have hev : ∀ name, evalParams (runBlocks env n) (counted sh) (entered sh inh) name (x.param.getD []) [] =
      .ok (x.param.getD []) (counted sh) (entered sh inh) := fun _ => evalParams_plain hplain
  have hparts := ending_parts hok
  have hu : ∀ raw, uncached inh raw = [] := fun raw => by unfold uncached; rw [hin]; rfl
  refine ⟨sh2, inh2, ?_, h2⟩
  cases hends with
  | exit l =>
    have := C23_effect env (runBlocks env n) sh (counted sh) sh2 inh (entered sh inh) inh2 [] _ [] _ _ _ none (by unfold Mods; simp) (by simp)
      hcnt (.inl rfl) hparts (hev _) (flagsOf_plain hplain) h1
    refine this.trans ?_
    rw [hu]
    rfl
  | exitWith p l =>
    have := C23_effect env (runBlocks env n) sh (counted sh) sh2 inh (entered sh inh) inh2 [] _ [] _ _ _ (some p) (by unfold Mods; simp) (by simp)
      hcnt (.inl rfl) hparts (hev _) (flagsOf_plain hplain) h1
    refine this.trans ?_
    rw [hu]
    have hne : p ≠ [] := (hok.1 p rfl).some
    cases p with
    | nil => exact absurd rfl hne
    | cons c r => rfl
  | @redirect p text status page l hr =>
    have := C41_accepted env (runBlocks env n) sh (counted sh) sh2 inh (entered sh inh) inh2 [] _ [] _ _ _ status p page (by unfold Mods; simp)
      (by simp) hcnt (.inl rfl) hparts (hev _) (flagsOf_plain hplain) h1 (by
        cases p with
        | none => exact hr
        | some q => exact hr)
    refine this.trans ?_
    rw [hu]
    rfl

/-- Text is printed after an exit, too. -/
theorem produces_text' (env : Env) (R : Rec) (only : Str) {sh : Shared} {inh : Inherit} : ∀ (t : Str), ¬ c!"{:" <:+: t →
    Produces env R only t sh inh true t sh inh
  | [], _ => .nil _ _
  | c :: t, h => by
    have h2 : ¬ c!"{:" <:+: t := fun ht => h (ht.trans ⟨[c], [], by simp⟩)
    exact .chr c (fun hp => h hp.isInfix) (fun hx => h2 hx.2) (produces_text' env R only t h2)

theorem initShared_inCache {env : Env} {filePath raw raw' : Str} {sh sh' : Shared} {inh : Inherit}
    (h : initShared env filePath raw sh = .ok (raw', sh', inh)) : inh.inCache = false := by
  unfold initShared at h
  split at h
  · simp at h
  dsimp only at h
  split at h
  · simp at h
  split at h
  · simp at h
  simp only [Except.ok.injEq, Prod.mk.injEq] at h
  obtain ⟨rfl, rfl, rfl⟩ := h
  rfl

theorem page_goodK {S : Site} : ∀ (l : List Part), (∀ x ∈ l, x.Ok S) → ∀ k, Cont k → Good k (printPage l)
  | [], _, k, _ => .nil _
  | x :: l, h, k, hk => by
    have h1 := page_goodK l (fun y hy => h y (by simp [hy])) k hk
    have h2 := (page_good l (fun y hy => h y (by simp [hy]))).2.1
    have hx := h x (by simp)
    simp only [printPage]
    cases x with
    | plain t => exact good_append (good_all t hx _ (cont_append h2 hk)) h1
    | cached e i o t =>
      obtain ⟨he, hi, ho, hl⟩ := hx
      exact good_append (good_isBif (part_isBif he hi ho hl)) h1

theorem gives_page {x : Ending} {text : Str} {a : Answer} (h : Gives x text a) {p : Str} (hp : a.page = some p) : p ≠ [] := by
  cases h with
  | exit => simp at hp
  | exitWith => simp at hp
  | redirect l hr => cases hr <;> (simp only [Option.some.injEq, reduceCtorEq] at hp; try (subst hp; simp))

/-- **C93.** Take a page that prints some parts (of the language of C77, some of them cached), then ends with `{:exit; … :}` or
`{:redirect; … :}`, and then has other parts; every schema, cache and clock.  The render succeeds; the status is the one given by the end
(C23, C41), its parameter, too; the answer is the line of the status for 400 to 599, that line and the target for an HTTP redirection, the
page of a JavaScript redirection, and otherwise what the parts before the end print, and of the parts after it, the text, if there is
no BIF in it; no BIF after the end is evaluated: the data, the cache and the number of BIFs are those of the end.  -/
theorem C93_answer (env : Env) (n : Nat) (w : World) (t : Tpl) (S : Site) (C : Caching) (l rest : List Part) (x : Ending) (a : Answer)
    (i j k : Nat) (sh : Shared) (s d defs : Obj)
    (hnew : Shared.new env w t.schema = some sh) (hS : SiteOf env sh S) (hC : CachingOf sh C) (hW : Writable env)
    (hap : NotEntries env S C) (hsane : Sane env (lifetimes l) w)
    (hok : ∀ y ∈ l, y.Ok S) (hrest : ∀ y ∈ rest, y.Ok S) (hx : x.Ok S) (hraw : t.raw = printPage l ++ x.print ++ printPage rest)
    (hs : t.schema = .obj s) (hd : Obj.get? c!"data" s = some (.obj d))
    (hinh : Obj.get? c!"inherit" s = some (.obj defs)) (hdefs : Defs S defs)
    (hends : Gives x (x.inside S (pageMeans env S C l (startMem d defs) w).2.1).1 a)
    (hdig : i < 10 ∧ j < 10 ∧ k < 10 ∧ a.status = code3 i j k)
    (hmax : (x.inside S (pageMeans env S C l (startMem d defs) w).2.1).2.bifs ≤ sh.max)
    (hcache : ¬ c!"{:!cache;" <:+: textUntil (pageMeans env S C l (startMem d defs) w).1 (printPage rest)) :
    ∃ r m t', r = pageMeans env S C l (startMem d defs) w ∧ m = (x.inside S r.2.1).2 ∧ t.render env n w = .ok t' ∧
      t'.out = a.says (100 * i + 10 * j + k) (replacements (textUntil r.1 (printPage rest))) ∧
      t'.shared.statusCode = a.status ∧ t'.shared.statusText = statusTextOf a.status ∧ t'.shared.statusParam = a.param ∧
      t'.shared.hasError = false ∧
      t'.shared.count = m.bifs ∧ t'.shared.schema.index c!"data" = .obj m.data ∧ t'.shared.w = r.2.2 := by
  obtain ⟨hg2, hc2, hk2⟩ := page_good rest hrest
  have hk1 := (page_good l hok).2.2
  have hbif := ending_isBif hx
  have hcx : ∀ y, Cont (x.print ++ y) := fun y => cont_bif _ _ _ _
  have hgood : Good [] (printPage l ++ x.print ++ printPage rest) := by
    refine good_append ?_ hg2
    refine good_append ?_ (good_isBif hbif)
    exact page_goodK l hok _ (hcx _)
  have hskip : Skips c!"*" (printPage l ++ x.print ++ printPage rest) := skips_append (skips_append hk1 (ending_skips hx)) hk2
  generalize hsrc : printPage l ++ x.print ++ printPage rest = src at hraw hgood hskip
  obtain ⟨sh1, inh, s1, hinit, hs1, hd1, hsees, hl, hlc, hal⟩ := init_data hnew ⟨by
    rw [hraw]
    refine C16_unchanged _ (fun hx => ?_)
    have := hskip [] (by simpa using hx)
    exact absurd this.length_le (by decide), hraw⟩ hs hd hinh
  obtain ⟨sc', g, hf⟩ := initShared_frame hinit
  obtain ⟨s1', s2, s3, s4, s5, s6, s7⟩ := sharedNew_start hnew
  have hw0 : sh.w = w := by
    unfold Shared.new at hnew
    dsimp only at hnew
    split at hnew
    · simp only [Option.some.injEq] at hnew
      rw [← hnew]
    · simp at hnew
  have hmx : sh1.max = sh.max := by rw [hf]
  have hcnt : sh1.count = 0 := by rw [hf]; exact s5
  have hex : sh1.exit = false := by rw [hf]; exact s7
  have hw1 : sh1.w = w := by rw [hf]; exact hw0
  have hS1 : SiteOf env sh1 S := by
    refine ⟨hS.F, ?_, ?_, ?_, hS.json, hS.md5, ?_⟩
    · rw [hf]; exact hS.filterAll
    · rw [hf]; exact hS.sanitize
    · rw [hf]; exact hS.lang
    · rw [hf]; exact hS.file
  have hC1 : CachingOf sh1 C := by
    refine ⟨?_, ?_, ?_, ?_, ?_, ?_⟩ <;> rw [hf]
    · exact hC.dir
    · exact hC.pre
    · exact hC.disabled
    · exact hC.post
    · exact hC.get
    · exact hC.cookies
  have hm0 : (⟨startData d, defs, inh.lastBifOut, inh.lastCoalesceOut, sh1.count⟩ : Mem) = startMem d defs := by
    rw [hl, hlc, hcnt]; rfl
  have hsame := Obj.insert_same hd1
  have hh : Holding sh1 s1 (startMem d defs) sh1 := by
    show sh1 = { sh1 with schema := .obj (Obj.insert c!"data" (.obj (startData d)) s1), indir := sh1.indir, count := 0 }
    rw [hsame, ← hs1, ← hcnt]
  have hlev := C24_start hinit
  generalize hr : pageMeans env S C l (startMem d defs) w = r at hends hmax hcache ⊢
  have hends0 := hends
  have hmono : r.2.1.bifs ≤ (x.inside S r.2.1).2.bifs := by
    have := mono_block (plus := false) (mono_all S x.body x.name) { r.2.1 with bifs := r.2.1.bifs + 1 }
    unfold Ending.inside
    simp only at this
    omega
  obtain ⟨q, hq⟩ := page_depth l
  generalize hN : max (max q (depthAll x.body + 1)) (sh1.max + 1) = N
  obtain ⟨sh2, inh2, hp, ha2, hS2⟩ := sound_page_site (env := env) (C := C) (sc := s1) hW hap (exps := lifetimes l) l (sh0 := sh1) hex hS1 hC1
    (by rw [hw1]; exact hsane) hok (fun _ h => h) (n := N) (m := startMem d defs) (sh := sh1)
    (inh := { inh with blockCount := inh.blockCount + 1 }) (b := 1)
    (fun x hx => by have := hq x hx; omega)
    ⟨hh, hl, hlc, hal, hlev, hsees, hdefs.params, hdefs.snippets, hdefs.declared⟩ (by rw [hw1, hr, hmx]; omega)
  rw [hw1, hr] at hp ha2 hS2
  have hin0 := initShared_inCache hinit
  have hin : inh2.inCache = false := (produces_inCache hp).trans hin0
  obtain ⟨sh3, inh3, hrun, ha3⟩ := ending_run (sh0 := inWorld sh1 r.2.2) (sc := s1) hex hS2 hx (n := N) (by omega) ha2 hin
    (by show _ ≤ sh1.max; rw [hmx]; exact hmax) hends
  have hex2 : sh2.exit = false := by rw [ha2.hold]; exact hex
  obtain ⟨e, y, hlast, hty⟩ : ∃ e y, Produces env (runBlocks env N) [] (printPage rest) (answered sh3 a)
      { inh3 with lastBifOut := false, lastCoalesceOut := false } e y (answered sh3 a)
      { inh3 with lastBifOut := false, lastCoalesceOut := false } ∧ ended e (r.1 ++ y) = textUntil r.1 (printPage rest) := by
    by_cases ho : c!"{:" <:+: printPage rest
    · refine ⟨false, [], .stop rfl ho, ?_⟩
      unfold textUntil ended
      rw [if_pos ho]
      simp
    · refine ⟨true, printPage rest, produces_text' _ _ _ _ ho, ?_⟩
      unfold textUntil ended
      rw [if_neg ho]
      simp
  have hwhole : Produces env (runBlocks env N) [] src sh1 { inh with blockCount := inh.blockCount + 1 } e (r.1 ++ y) (answered sh3 a)
      { inh3 with lastBifOut := false, lastCoalesceOut := false } := by
    rw [← hsrc, List.append_assoc]
    refine C68_append hp rfl hex2 ?_ ?_
    · rintro ⟨u, hu⟩
      exact (hcx (printPage rest)).1 (by rw [← hu]; rfl)
    · have := Produces.evaluated (env := env) (R := runBlocks env N) (only := []) hex2 hbif (by
        rintro ⟨e1, e2⟩
        rw [ha2.alias] at e1
        simp at e1) (x := trim []) hrun hlast
      rwa [show trim ([] : Str) = [] from rfl, List.nil_append] at this
  obtain ⟨bl, hwf⟩ := good_wf hgood rfl 0
  have hp := (C68_blocks env _ sh1 _ _ _ src [] _ bl hwf).2 ⟨e, _, hwhole, rfl⟩
  have hne : parseSrc (runBlocks env (sh1.max + 1)) sh1 { inh with blockCount := inh.blockCount + 1 } src [] ≠ .oof := by
    unfold parseSrc
    rw [C15_complete _ _ hwf]
    dsimp only
    rcases C19_terminates env (sh1.max + 1) sh1 { inh with blockCount := inh.blockCount + 1 } src [] bl (by omega) (by omega) with
      ⟨o, s, i, h⟩ | ⟨p, h⟩ <;> (rw [h]; simp)
  have hle := parseSrc_le (fun sh inh src bs only h => C19_depth env (sh1.max + 1) (N + 1) (by omega) sh inh src only bs h)
    sh1 { inh with blockCount := inh.blockCount + 1 } _ _ hne
  rw [hle, hty] at hp
  have hends := ha3.hold
  have hoth : ∀ k, k ≠ c!"data" → sh3.schema.index k = sh1.schema.index k := by
    intro k hk
    rw [hends, hs1]
    simp only [inWorld, Value.index, Value.get?]
    rw [Obj.get?_insert_ne _ _ (Ne.symm hk)]
  have hjs : sh3.redirectJs = [] := by rw [hends]; show sh1.redirectJs = _; rw [hf]; exact s4
  refine ⟨r, _, ⟨src, t.filePath, t.schema, answered sh3 a, a.says (100 * i + 10 * j + k) (replacements (textUntil r.1 (printPage rest)))⟩,
    rfl, rfl, ?_, rfl, rfl, rfl, rfl, ?_, ?_, ?_, ?_⟩
  · have hb' : contains bifOpen t.raw = true := (contains_iff (by decide)).2 (by
      rw [hraw, ← hsrc]
      exact (show c!"{:" <:+: x.print from bif_open rfl).trans ⟨printPage l, printPage rest, rfl⟩)
    unfold Tpl.render
    simp only [hb', Bool.not_true, Bool.false_eq_true, if_false]
    unfold renderWith
    rw [hnew]
    simp only
    rw [hinit]
    simp only
    rw [C24_passes hinit, hp]
    simp only [cacheLoop_done env inh n _ _ hcache]
    unfold endsRender
    rw [show (answered sh3 a).schema = sh3.schema from rfl, applyMoveto_empty ((hoth _ (by decide)).trans (initShared_ok hinit).2.1)]
    simp only [Option.map_some]
    obtain ⟨hi, hj, hk, hst⟩ := hdig
    have := C40_three_digits (answered sh3 a) (replacements (textUntil r.1 (printPage rest))) i j k hi hj hk hst
    rw [this]
    have hfin : (if 400 ≤ 100 * i + 10 * j + k ∧ 100 * i + 10 * j + k ≤ 599 then
          (answered sh3 a).statusCode ++ c!" " ++ (answered sh3 a).statusText
        else if 100 * i + 10 * j + k ∈ [301, 302, 303, 307, 308] then
          (answered sh3 a).statusCode ++ c!" " ++ (answered sh3 a).statusText ++ c!"\n" ++ (answered sh3 a).statusParam
        else if (answered sh3 a).redirectJs ≠ [] then (answered sh3 a).redirectJs else replacements (textUntil r.1 (printPage rest))) =
        a.says (100 * i + 10 * j + k) (replacements (textUntil r.1 (printPage rest))) := by
      unfold Answer.says
      simp only [answered]
      split
      · rfl
      · split
        · rfl
        · have hpg := fun p => gives_page (p := p) hends0
          cases a with
          | mk st pa pg =>
            cases pg with
            | none => simp [hjs]
            | some p => simp [hpg p rfl]
    rw [hfin]
  · show sh3.hasError = _; rw [hends]; show sh1.hasError = _; rw [hf]; exact s6
  · show sh3.count = _; rw [hends]
  · exact hends.data
  · show sh3.w = _; rw [hends]; rfl

/-! Samples. -/

/-- A page that redirects when it is done. -/
def Sample.moved : Str :=
  printPage Sample.cachedPage ++ (Ending.redirect (some c!"302") [.text c!"/to/", .var true c!"x"]).print ++ printPage Sample.cachedPage

set_option maxRecDepth 10000 in
/-- The premises are met by it, at the first request to a cache without entries. -/
example : ∃ r m t', r = pageMeans Sample.envC Sample.pageSite Sample.caching Sample.cachedPage (startMem [(c!"x", .str c!"X")] Sample.pageDefs)
      Sample.pageWorld ∧ m = ((Ending.redirect (some c!"302") [.text c!"/to/", .var true c!"x"]).inside Sample.pageSite r.2.1).2 ∧
    (Sample.tpl (Sample.schema 1000 [(c!"x", .str c!"X")] Sample.pageDefs) Sample.moved).render Sample.envC 10 Sample.pageWorld = .ok t' ∧
    t'.out = c!"302 Found\n/to/X" ∧ t'.shared.count = m.bifs := by
  obtain ⟨r, m, t', h1, h2, h3, h4, _, _, _, _, h5, _⟩ := C93_answer Sample.envC 10 Sample.pageWorld
    (Sample.tpl (Sample.schema 1000 [(c!"x", .str c!"X")] Sample.pageDefs) Sample.moved)
    Sample.pageSite Sample.caching Sample.cachedPage Sample.cachedPage (.redirect (some c!"302") [.text c!"/to/", .var true c!"x"])
    ⟨c!"302", c!"/to/X", none⟩ 3 0 2 _ _ [(c!"x", .str c!"X")] Sample.pageDefs rfl (Sample.page_site rfl).1 (Sample.page_site rfl).2
    ⟨fun _ _ => rfl, fun _ _ => rfl, fun _ _ => rfl⟩ Sample.page_apart Sample.page_sane Sample.cachedPage_ok Sample.cachedPage_ok
    ⟨fun p hp => by
      simp only [Ending.param, Option.some.injEq] at hp
      subst hp
      exact nameOk_of (by decide), by
      simp only [Ending.body, AllOk, Node.Ok, and_true]
      exact ⟨textOk_of (by decide), nameOk_of (by decide)⟩⟩
    rfl rfl rfl rfl ⟨.inr ⟨_, rfl⟩, rfl, rfl⟩
    (by
      have : ((Ending.redirect (some c!"302") [.text c!"/to/", .var true c!"x"]).inside Sample.pageSite
        (pageMeans Sample.envC Sample.pageSite Sample.caching Sample.cachedPage (startMem [(c!"x", .str c!"X")] Sample.pageDefs)
          Sample.pageWorld).2.1).1 = c!"/to/X" := by decide +kernel
      rw [this]
      exact .redirect _ (.http (by simp) (by simp)))
    ⟨by omega, by omega, by omega, by decide⟩ (by decide +kernel) (by decide +kernel)
  exact ⟨r, m, t', h1, h2, h3, by rw [h4]; rfl, h5⟩

/-! ### Inside a cached part -/

/-- **C23 (cached).** An exit in a cached part loses the text of the page: when the mark is set and the text has a `{:!cache;` in it (the
exit left one, C23_effect, C41_accepted), the second pass ends with the empty text. -/
theorem C23_cached (env : Env) (inh inh' : Inherit) (n : Nat) (sh sh' : Shared) (out x : Str) (b e : Nat) (l : List (Nat × Nat))
    (hexit : sh.exit = true) (hc : c!"{:!cache;" <:+: out) (hb : extractBlocks out = .ok ((b, e) :: l))
    (h : cacheLoop env inh n sh out = .ok x sh' inh') : x = [] := by
  have hc' : contains c!"{:!cache;" out = true := (contains_iff (by decide)).2 hc
  cases n with
  | zero => simp [cacheLoop, hc'] at h
  | succ n =>
    have hpass : pass env sh inh out c!"!cache" = .ok [] (dropBlock sh { inh with blockCount := inh.blockCount + 1 })
        { inh with blockCount := inh.blockCount + 1 } := by
      unfold pass parseSrc
      rw [hb]
      simp only [runBlocks, blocksGo, hexit, if_true]
    simp only [cacheLoop, hc', if_true, hpass] at h
    have hno : contains c!"{:!cache;" ([] : Str) = false := rfl
    cases n with
    | zero => simp only [cacheLoop, hno, Bool.false_eq_true, if_false, PRes.ok.injEq] at h; exact h.1.symm
    | succ n => simp only [cacheLoop, hno, Bool.false_eq_true, if_false, PRes.ok.injEq] at h; exact h.1.symm

/-- A page with an exit in a cached part. -/
def Sample.cachedExit (x : Str) (w : World) : RRes :=
  (Sample.tpl (Sample.schema 1000 [(c!"x", .str x)] Sample.pageDefs) c!"a{:cache; /60/i/ >> b{:exit; 202 :}c{:;x:}d :}e{:;x:}f").render
    Sample.envC 10 w

set_option maxRecDepth 10000 in
/-- The full statement is false inside cached parts: at the first request the text before the exit is lost, and at the following ones, when
the part is taken from the cache, what follows it is evaluated. -/
theorem C23_cached_refuted : Sample.outOf (Sample.cachedExit c!"X" Sample.pageWorld) = some ([], c!"202") ∧
    Sample.outOf (Sample.cachedExit c!"X" (Sample.after 2 (Sample.cachedExit c!"X" Sample.pageWorld))) = some (c!"abeXf", c!"202") := by
  decide +kernel

set_option maxRecDepth 10000 in
/-- Being in a cached part ends with it, also when it fails (the second one has no lifetime): the exit after it is not for a second pass. -/
example : Sample.outOf (Sample.go [(c!"x", .str c!"X")] c!"a{:cache; /1/ >> b{:;x:}c :}{:cache; x :}{:exit; 202 :}z") =
    some (c!"abXcz", c!"202") := by decide +kernel

end Nts
