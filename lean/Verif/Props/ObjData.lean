import Verif.Props.Obj
import Verif.Props.Data
import Verif.Props.Compose
/-
C64: the result of an object.
-/
set_option autoImplicit false
namespace Nts
open Spec

theorem run_flg_inline (R : Rec) (s : St) (hsrc : s.b.src = c!"inline")
    (hm : (s.b.modFilter || s.b.modNegate || s.b.modUpline || s.b.modScope) = false) (hfl : s.b.flags = []) :
    run R bifFlg s = .ok () { s with sh := { s.sh with flags := c!"|inline|" }, b := { s.b with params := [], code := c!"inline", out := [] } } := by
  unfold bifFlg
  have hp : Parts c!"inline" none c!"inline" := .code (src := c!"inline") (noSep_plain _ _ (by decide))
  simp only [run_bind, run_denyMods, hm, Bool.false_eq_true, if_false, andThen_ok]
  rw [run_extract_plain R true hp s (by rw [hsrc]; rfl) (fun _ => by decide)]
  simp only [andThen_ok, run_denyFlags, hfl]
  rfl

theorem parseSrc_inline (env : Env) (n : Nat) (sh : Shared) (inh : Inherit) (only : Str) (hmax : sh.count < sh.max)
    (hexit : sh.exit = false) (hin : inh.inOnly = true) (hname : inh.alias ≠ c!"coalesce") :
    parseSrc (runBlocks env (n + 1)) sh inh c!"{:flg; inline :}" only =
      .ok [] { sh with count := sh.count + 1, flags := c!"|inline|" }
        { inh with bifCount := sh.count + 1, inOnly := true, lastBifOut := false, lastCoalesceOut := false } := by
  unfold parseSrc
  rw [show extractBlocks c!"{:flg; inline :}" = .ok [(0, 16)] from rfl]
  simp only [runBlocks]
  rw [blocksGo_bif hexit (by
    rw [show startsWith c!"{:*" (slice c!"{:flg; inline :}" 0 16) = false from rfl]
    simp [hname])]
  rw [show slice c!"{:flg; inline :}" 0 16 = bifText [] c!"flg" c!" inline " from rfl]
  rw [runBif_text env _ _ _ [] c!"flg" c!" inline " only (by unfold Mods; decide) (by
    refine ⟨by decide, ?_⟩
    intro c r hc
    injection hc with h1 h2
    subst h1
    decide) hmax (.inr (.inl hin))]
  rw [show bifBody env c!"flg" = bifFlg from rfl, run_flg_inline _ _ rfl rfl rfl]
  rfl

/-- Evaluating `{:flg; inline :}` as a parameter sets the flag, and nothing else. -/
theorem evalParams_inline (env : Env) (n : Nat) (sh : Shared) (inh : Inherit) (name only : Str) (b : Nat)
    (hb : AtLevel inh b) (hmax : sh.count < sh.max)
    (hexit : sh.exit = false) (hin : inh.inOnly = true) (hname : name ≠ c!"coalesce") :
    evalParams (runBlocks env (n + 1)) sh inh name c!"{:flg; inline :}" only =
      .ok [] { sh with count := sh.count + 1, flags := c!"|inline|" } inh := by
  unfold evalParams
  rw [if_pos (by decide)]
  unfold nested
  rw [if_pos (by decide)]
  unfold runChild
  simp only [Bool.false_eq_true, if_false]
  rw [parseSrc_inline env n _ _ only (by exact hmax) (by exact hexit) (by exact hin) (by exact hname)]
  have hne : blockId (inh.blockCount + 1) ≠ inh.indir := by
    intro h
    obtain ⟨j, _, h2, h3⟩ := hb.block
    rw [h3] at h
    have := blockId_inj h
    have := hb.count
    omega
  unfold dropBlock
  dsimp only
  rw [if_neg (fun h => hne h.2)]

/-- The result of an object, as it is written into the code. -/
def Spec.resultBif (json : Str) : Str := c!"{:data;{:flg; inline :}>>" ++ json ++ c!":}"

theorem bal_pre {k s : Str} : ∀ (a : Str), '{' ∉ a → ':' ∉ a → Bal k s → Bal k (a ++ s)
  | [], _, _, h => h
  | c :: a, h1, h2, h => by
    simp only [List.mem_cons, not_or] at h1 h2
    refine .chr c ?_ ?_ (bal_pre a h1.2 h2.2 h)
    · rintro ⟨t, ht⟩; injection ht with e; exact h1.1 e
    · rintro ⟨t, ht⟩; injection ht with e; exact h2.1 e

theorem resultBif_isBif {json : Str} (h : Bal c!":}" json) : IsBif (resultBif json) := by
  refine ⟨c!"data;{:flg; inline :}>>" ++ json, by simp [resultBif], ?_, ?_⟩
  · have h1 : Bal c!":}" (c!">>" ++ json) := bal_pre c!">>" (by decide) (by decide) h
    have h2 : Bal c!":}" (c!"{:" ++ c!"flg; inline " ++ c!":}" ++ (c!">>" ++ json)) :=
      .nest (bal_chars (by decide) (by decide)) h1
    have h3 := bal_pre c!"data;" (by decide) (by decide) h2
    simpa using h3
  · rintro ⟨t, ht⟩
    simp at ht

theorem trim_ends {a : Str} {c d : Char} (hc : isWs c = false) (hd : isWs d = false) : trim (c :: a ++ [d]) = c :: a ++ [d] := by
  unfold trim
  rw [show trimStart (c :: a ++ [d]) = c :: a ++ [d] by simp [trimStart, hc]]
  unfold trimEnd
  rw [List.reverse_append]
  simp [hd]

/-- The parts of that BIF. -/
theorem resultBif_parts {a : Str} :
    Parts (c!"{:flg; inline :}>>" ++ (c!"{" ++ a ++ c!"}")) (some c!"{:flg; inline :}") (c!"{" ++ a ++ c!"}") := by
  have h1 : NoSep (c!">>" ++ (c!"{" ++ a ++ c!"}")) c!"{:flg; inline :}" :=
    NoSep.nest (b := c!"flg; inline ") (s := []) (bal_chars (by decide) (by decide)) (.nil _)
  have h2 : trim (c!"{:flg; inline :}>>" ++ (c!"{" ++ a ++ c!"}")) =
      c!"{:flg; inline :}" ++ c!">>" ++ (c!"{" ++ a ++ c!"}") :=
    trim_ends (c := '{') (d := '}') (a := c!":flg; inline :}>>{" ++ a) (by decide) (by decide)
  have h3 : trim (c!"{" ++ a ++ c!"}") = c!"{" ++ a ++ c!"}" :=
    trim_ends (c := '{') (d := '}') (a := a) (by decide) (by decide)
  have := Parts.both (src := c!"{:flg; inline :}>>" ++ (c!"{" ++ a ++ c!"}")) h1 h2
  rw [h3] at this
  exact this

/-- **C64 (the result, part).** When the text of the result (JSON of an object, read back as the result by the JSON parser) is
well nested, what follows it in the code is evaluated with the data of the result merged into the local data, and nothing
else changed. Missing: results whose text contains `{:` or `:}` out of balance, for which it is false (`C64_refuted`). -/
theorem C64_data_partial (env : Env) (n : Nat) (sh : Shared) (inh : Inherit) (o : Obj) (result new : Value) (only c a : Str)
    (tbl : Obj) (b : Nat) (htext : env.jsonShow result = c!"{" ++ a ++ c!"}") (hbal : Bal c!":}" (env.jsonShow result))
    (hj : env.jsonParse (env.jsonShow result) = some result) (hd : result.get? c!"data" = some new) (hne : emptyVal new = false)
    (hwf : new.WF) (hb : AtLevel inh b) (hmax : sh.count + 1 < sh.max) (hexit : sh.exit = false)
    (hsel : Selected inh [] c!"data" only) (hal : inh.alias ≠ c!"coalesce") (ho : sh.indir inh.indir = some (.obj tbl)) :
    ∃ sh1 inh1, Loaded c!"data" new { sh with count := sh.count + 2, flags := c!"|inline|" } inh sh1 inh1 ∧
      ∀ e y sh' inh', Produces env (runBlocks env (n + 1)) only
          ((if textIn o c!"template" [] = [] then [] else c!"{:include;" ++ textIn o c!"template" [] ++ c!":}") ++ c)
          sh1 inh1 e y sh' inh' →
        Produces env (runBlocks env (n + 1)) only (objShows env o result c) sh inh e (c!"&#0;" ++ y) sh' inh' := by
  have hx := evalParams_inline env n (counted sh) (entered sh inh) c!"data" only b ⟨hb.count, hb.block⟩ hmax hexit rfl (by decide)
  have hparts := resultBif_parts (a := a)
  have hf : flagsOf { counted sh with count := (counted sh).count + 1, flags := c!"|inline|" } c!"{:flg; inline :}" = c!"|inline|" := by
    unfold flagsOf
    rw [if_pos (by decide)]
  obtain ⟨sh2, inh2, h1, h2, h3⟩ := C54_inline_partial env (runBlocks env (n + 1)) sh _ inh (entered sh inh) [] _ only _ []
    (some c!"{:flg; inline :}") result new tbl (by unfold Mods; decide) (by decide) (by decide) (by omega) hsel hparts hx
    (by rw [Option.getD_some, hf]; unfold Flag; decide) (by rw [← htext]; exact hj) hd hwf ho
  have hbif : resultBif (env.jsonShow result) = bifText [] c!"data" (c!"{:flg; inline :}>>" ++ (c!"{" ++ a ++ c!"}")) := by
    rw [htext]; simp [resultBif, bifText]
  have hh : hasData result = true := by
    unfold hasData
    rw [hd]
    simp [hne]
  unfold finish at h1
  refine ⟨sh2, { inh2 with lastBifOut := true, lastCoalesceOut := true }, ⟨h3.keeps, h3.takes, h3.others, h3.rest⟩, ?_⟩
  intro e y sh' inh' hp
  unfold objShows
  rw [if_pos hh, List.append_assoc]
  refine .evaluated (x := c!"&#0;") hexit (resultBif_isBif hbal) (fun h => hal h.1) ?_ hp
  change runBif env _ sh inh (resultBif (env.jsonShow result)) only = _
  rw [hbif, h1]
  rfl

/-! ### concrete cases -/

/-- JSON and scripts for the samples. -/
def Sample.envO (answer : Str) : Env :=
  { Sample.env with
    lower := fun s => s
    jsonParse := fun s =>
      if s = c!"{D}" then some (.obj [(c!"file", .str c!"s.py"), (c!"params", .obj [(c!"q", .str c!"{:;x:}")]), (c!"keep", .str c!"{:;x:}")])
      else if s = c!"{\"data\":{\"r\":\"ok\"}}" then some (.obj [(c!"data", .obj [(c!"r", .str c!"ok")])])
      else none
    jsonShow := fun v => match (v.index c!"data").index c!"r" with
      | .str r => c!"{\"data\":{\"r\":\"" ++ r ++ c!"\"}}"
      | _ => c!"null"
    canon := fun p => .ok p
    execObj := fun _ call =>
      if call.file = c!"s.py" ∧ call.callback = c!"main" ∧ (call.params.index c!"q").asStr? = some c!"X" then
        .ok (.obj [(c!"data", .obj [(c!"r", .str answer)])])
      else .error c!"failed" }
/-- Render with these; the script answers with the text `answer`. -/
def Sample.goO (answer x src : Str) : RRes :=
  (Sample.tpl (Sample.schema 1000 [(c!"x", .str x), (c!"f", .str c!"o.json")] Sample.inherit) src).render (Sample.envO answer) 10
    ⟨fun p => if p = c!"s.py" then some (Sample.file []) else if p = c!"o.json" then some (Sample.file c!"{D}") else none, 0⟩

/-- The definition inline, in a file, and a failing script. -/
example : Sample.outOf (Sample.goO c!"ok" c!"X" c!"[{:obj; {D} >> ({:;local::r:}) :}]") = some (c!"[(ok)]", c!"200") ∧
    Sample.outOf (Sample.goO c!"ok" c!"X" c!"[{:obj; o.json >> ({:;local::r:}) :}]") = some (c!"[(ok)]", c!"200") ∧
    Sample.errorCount (Sample.goO c!"ok" c!"Y" c!"[{:obj; o.json >> ({:;local::r:}) :}]") = some (true, 1) := by
  refine ⟨?_, ?_, ?_⟩ <;> decide +kernel

/-- **C64 is false as stated**: the text of the result is written into the code of the template without protection. A script that
answers with a text containing `:}` (a comment of a visitor, say) ends the BIF, and what follows is evaluated as template
code: here `exit` is executed, and in the second case a variable is read. -/
theorem C64_refuted :
    Sample.outOf (Sample.goO c!":}{:exit; 404 :}{:code;{" c!"X" c!"[{:obj; {D} >> ({:;local::r:}) :}]") =
      some (c!"404 Not Found", c!"404") ∧
    Sample.outOf (Sample.goO c!":}{:;x:}{:code;{" c!"X" c!"[{:obj; {D} >> ({:;local::r:}) :}]") =
      some (c!"[X{\"}}()]", c!"200") := by
  constructor <;> decide +kernel

/-- **C66 is false for `obj`**: the name of the definition file may come from the data, without `allow`, even as a bare
variable. -/
theorem C66_obj_refuted :
    Sample.outOf (Sample.goO c!"ok" c!"X" c!"[{:obj; {:;f:} >> ({:;local::r:}) :}]") = some (c!"[(ok)]", c!"200") := by
  decide +kernel

/-- The definition of the sample: split, read and evaluated. -/
example (R : Rec) (sh : Shared) (inh : Inherit) :
    ObjParts c!" {D} " c!"{D}" [] ∧ ObjText R sh inh c!"{D}" [] c!"{D}" [] sh ∧
    ObjGives R [] [] inh false [(c!"file", .str c!"s.py"), (c!"params", .obj [(c!"q", .str c!"1")]), (c!"keep", .str c!"{:;x:}")] sh
      [(c!"file", .str c!"s.py"), (c!"params", .obj [(c!"q", .str c!"1")]), (c!"keep", .str c!"{:;x:}")] sh := by
  refine ⟨?_, .inline ⟨c!"D", rfl, by decide, by decide⟩, ?_⟩
  · refine .alone (src := c!" {D} ") ?_ ?_
    · rw [← contains_iff (by decide)]; decide
    · refine .chr '{' (by decide) (by decide) (by decide) (.chr 'D' (by decide) (by decide) (by decide)
        (.chr '}' (by decide) (by decide) (by decide) (.nil _)))
  · refine .cons (sh1 := sh) (.text (.inl (by decide)) (inh' := inh) ?_) (.cons (.inner (by decide) (.inl rfl)
      (.cons (.text (.inr (.inr rfl)) (inh' := inh) ?_) .nil)) (.cons (.kept ?_ ?_) .nil))
    · rfl
    · rfl
    · intro x _; exact ⟨by decide, by decide, rfl⟩
    · intro o h; simp at h

/-- A result in balance. -/
example : Bal c!":}" c!"{\"data\":{\"r\":\"ok\"}}" := by
  refine .chr _ (by decide) (by decide) (bal_pre c!"\"data\"" (by decide) (by decide)
    (.chr _ (by decide) (by decide) (.chr _ (by decide) (by decide) (bal_pre c!"\"r\"" (by decide) (by decide)
    (.chr _ (by decide) (by decide) (bal_pre c!"\"ok\"}}" (by decide) (by decide) (.nil _)))))))

end Nts
