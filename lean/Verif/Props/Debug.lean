import Verif.Lemmas.Eval
import Verif.Props.Inject
/-
C65: debug.
-/
set_option autoImplicit false
namespace Nts
open Spec

/-- Is the file younger than `expire` seconds, at a reading of the clock?  One from the future is not. -/
def Spec.Young (env : Env) (reading mtime expire : Nat) : Prop :=
  ∃ ns, env.age reading mtime = some ns ∧ ns < expire * 1000000000

/-- Is debugging enabled?  A debug file is configured, it exists, it is a regular file, and it is younger than the
configured age.  Looking at its age takes one reading of the clock. -/
inductive Spec.DebugState (env : Env) (sh : Shared) : Bool → Shared → Prop
  | unset : sh.debugFile = [] → DebugState env sh false sh
  | missing : sh.w.fs sh.debugFile = none → DebugState env sh false sh
  | dir {e : FileEntry} : sh.w.fs sh.debugFile = some e → e.isFile = false → DebugState env sh false sh
  | old {e : FileEntry} : sh.debugFile ≠ [] → sh.w.fs sh.debugFile = some e → e.isFile = true →
      ¬ Young env sh.w.tick e.mtime sh.debugExpire →
      DebugState env sh false { sh with w := { sh.w with tick := sh.w.tick + 1 } }
  | young {e : FileEntry} : sh.debugFile ≠ [] → sh.w.fs sh.debugFile = some e → e.isFile = true →
      Young env sh.w.tick e.mtime sh.debugExpire →
      DebugState env sh true { sh with w := { sh.w with tick := sh.w.tick + 1 } }

theorem run_debugEnable {env : Env} {R : Rec} {sh sh' : Shared} {b : Bool} (h : DebugState env sh b sh') (s : St)
    (hs : s.sh = sh) : run R (debugEnable env) s = .ok b { s with sh := sh' } := by
  subst hs
  unfold debugEnable
  simp only [run_bind, run_getSt, andThen_ok, run_ite]
  cases h with
  | unset h => rw [if_pos (by rw [h]; rfl)]; rfl
  | missing h =>
    split
    · rfl
    · rw [h]; rfl
  | dir h h2 =>
    split
    · rfl
    · rw [h]
      simp only [run_ite]
      rw [if_pos (by simp [h2])]
      rfl
  | old h0 h h2 h3 =>
    rw [if_neg (by simpa using h0), h]
    simp only [run_ite]
    rw [if_neg (by simp [h2])]
    simp only [run_bind, run_tick, andThen_ok, run_pure]
    cases ha : env.age s.sh.w.tick _ with
    | none => rfl
    | some ns =>
      have : ¬ ns < s.sh.debugExpire * 1000000000 := fun hlt => h3 ⟨ns, ha, hlt⟩
      simp only [this, decide_false]
  | young h0 h h2 h3 =>
    obtain ⟨ns, ha, hlt⟩ := h3
    rw [if_neg (by simpa using h0), h]
    simp only [run_ite]
    rw [if_neg (by simp [h2])]
    simp only [run_bind, run_tick, andThen_ok, run_pure]
    rw [ha]
    simp only [hlt, decide_true]

/-- One of the cases holds. -/
theorem debugState_total (env : Env) (sh : Shared) : ∃ b sh', DebugState env sh b sh' := by
  by_cases h0 : sh.debugFile = []
  · exact ⟨_, _, .unset h0⟩
  · cases h : sh.w.fs sh.debugFile with
    | none => exact ⟨_, _, .missing h⟩
    | some e =>
      cases h2 : e.isFile with
      | false => exact ⟨_, _, .dir h h2⟩
      | true =>
        by_cases h3 : Young env sh.w.tick e.mtime sh.debugExpire
        · exact ⟨_, _, .young h0 h h2 h3⟩
        · exact ⟨_, _, .old h0 h h2 h3⟩

theorem named_debug : Named c!"debug" := by
  refine ⟨by decide, ?_⟩
  intro c r hc
  injection hc with h1 h2
  subst h1
  decide

/-- **C65 (disabled).** Without a fresh debug file `{:debug; … :}` shows nothing, whatever its source and the data are, and it is
an error (unless negated): its parameters are not even evaluated. -/
theorem C65_disabled (env : Env) (R : Rec) (sh sh1 : Shared) (inh : Inherit) (mods src only : Str)
    (hm : Mods mods) (hsc : '+' ∉ mods) (hmax : sh.count < sh.max)
    (hsel : Selected inh mods c!"debug" only) (hd : DebugState env (counted sh) false sh1) :
    runBif env R sh inh (bifText mods c!"debug" src) only =
      if '!' ∈ mods then hidden mods sh1 (entered sh inh)
      else failed env mods c!"debug" (bifText mods c!"debug" src)
        c!"Debug is disabled. Remember to remove the bif debug in production." sh1 (entered sh inh) := by
  rw [runBif_text env R sh inh mods c!"debug" src only hm named_debug hmax hsel]
  have hbody : bifBody env c!"debug" = bifDebug env := rfl
  rw [hbody]
  unfold bifDebug
  simp only [run_bind, run_denyMods]
  rw [if_neg (by simp [start, hsc]), andThen_ok, run_debugEnable hd _ rfl]
  simp only [andThen_ok, run_getSt, run_ite]
  by_cases hn : '!' ∈ mods
  · rw [if_pos (by simp [start, hn]), if_pos hn]
    rfl
  · rw [if_neg (by simp [start, hn]), if_neg hn]
    rw [if_pos (by rfl)]
    simp only [run_bind, run_setOut, andThen_ok, run_bifError]
    exact bifResult_failed env mods c!"debug" _ _ _ _ _ rfl rfl rfl rfl rfl rfl

/-- **C65 (test).** `{:!debug; :}` shows something exactly when debugging is enabled, and never any data. -/
theorem C65_test (env : Env) (R : Rec) (sh sh1 : Shared) (inh : Inherit) (mods src only : Str) (on : Bool)
    (hm : Mods mods) (hsc : '+' ∉ mods) (hn : '!' ∈ mods) (hmax : sh.count < sh.max)
    (hsel : Selected inh mods c!"debug" only) (hd : DebugState env (counted sh) on sh1) :
    runBif env R sh inh (bifText mods c!"debug" src) only =
      finish (decide ('^' ∈ mods)) (if on then c!"&#0;" else []) sh1 (entered sh inh) := by
  rw [runBif_text env R sh inh mods c!"debug" src only hm named_debug hmax hsel]
  have hbody : bifBody env c!"debug" = bifDebug env := rfl
  rw [hbody]
  unfold bifDebug
  simp only [run_bind, run_denyMods]
  rw [if_neg (by simp [start, hsc]), andThen_ok, run_debugEnable hd _ rfl]
  simp only [andThen_ok, run_getSt, run_ite]
  rw [if_pos (by simp [start, hn])]
  rfl

/-- The value `{:debug; key :}` looks at: the whole schema (or the local definitions, with `local::`) for `full-schema`, else the
value at the path, whose steps are separated by `->` or `/`. -/
def Spec.debugged (sh : Shared) (inh : Inherit) (key : Str) : Option Value :=
  match stripPrefix? c!"local::" key with
  | some r => (sh.getIndir inh.indir).pointer (if r = c!"full-schema" then [] else replaceAll c!"->" c!"/" (c!"/" ++ r))
  | none => sh.schema.pointer (if key = c!"full-schema" then [] else replaceAll c!"->" c!"/" (c!"/" ++ key))

/-- **C65 (enabled).** With a fresh debug file `{:debug; key :}` shows the JSON text of the value, in HTML encoding with `&`;
nothing changes. -/
theorem C65_shows (env : Env) (R : Rec) (sh sh1 : Shared) (inh : Inherit) (mods src only c : Str)
    (hm : Mods mods) (hsc : '+' ∉ mods) (hn : '!' ∉ mods) (hmax : sh.count < sh.max)
    (hsel : Selected inh mods c!"debug" only) (hparts : Parts src none c) (hc : c ≠ [])
    (hd : DebugState env (counted sh) true sh1) :
    runBif env R sh inh (bifText mods c!"debug" src) only =
      finish (decide ('^' ∈ mods))
        (let text := match debugged sh1 inh c with
          | some v => env.jsonPretty v
          | none => c!"Undefined: '" ++ c ++ c!"'"
         if '&' ∈ mods then escapeChars true (unescapeChars true text) else text) sh1 (entered sh inh) := by
  rw [runBif_text env R sh inh mods c!"debug" src only hm named_debug hmax hsel]
  have hbody : bifBody env c!"debug" = bifDebug env := rfl
  rw [hbody]
  unfold bifDebug
  simp only [run_bind, run_denyMods]
  rw [if_neg (by simp [start, hsc]), andThen_ok, run_debugEnable hd _ rfl]
  simp only [andThen_ok, run_getSt, run_ite]
  rw [if_neg (by simp [start, hn]), if_neg (by simp)]
  simp only [run_bind]
  rw [run_extract_plain R true hparts _ rfl (fun _ => by decide)]
  simp only [andThen_ok, run_getSt, run_ite]
  rw [if_neg (by simpa using hc), run_setOut]
  unfold debugged
  cases hsp : stripPrefix? c!"local::" c <;> dsimp only <;> by_cases hf : '&' ∈ mods <;>
    simp [start, hf, run_ite, run_pure] <;> rfl

/-- **C65 (version).** Without a key it shows the version of the crate. -/
theorem C65_version (env : Env) (R : Rec) (sh sh1 : Shared) (inh : Inherit) (mods src only : Str)
    (hm : Mods mods) (hsc : '+' ∉ mods) (hn : '!' ∉ mods) (hmax : sh.count < sh.max)
    (hsel : Selected inh mods c!"debug" only) (hparts : Parts src none [])
    (hd : DebugState env (counted sh) true sh1) :
    runBif env R sh inh (bifText mods c!"debug" src) only =
      finish (decide ('^' ∈ mods)) VERSION sh1 (entered sh inh) := by
  rw [runBif_text env R sh inh mods c!"debug" src only hm named_debug hmax hsel]
  have hbody : bifBody env c!"debug" = bifDebug env := rfl
  rw [hbody]
  unfold bifDebug
  simp only [run_bind, run_denyMods]
  rw [if_neg (by simp [start, hsc]), andThen_ok, run_debugEnable hd _ rfl]
  simp only [andThen_ok, run_getSt, run_ite]
  rw [if_neg (by simp [start, hn]), if_neg (by simp)]
  simp only [run_bind]
  rw [run_extract_plain R true hparts _ rfl (fun _ => by decide)]
  simp only [andThen_ok, run_getSt, run_ite]
  rw [if_pos (by rfl), run_setOut]
  rfl

/-- The sample environment, showing values as texts. -/
def Sample.envD : Env := { Sample.env with jsonPretty := fun v => match v with | .str s => c!"\"" ++ s ++ c!"\"" | _ => c!"…" }

/-- Render with the debug file `d`, written at second `m`; the clock stands at 1000. -/
def Sample.goDebug (m : Option Nat) (data : Obj) (src : Str) : RRes :=
  let t := Sample.tpl (Sample.schema 1000 data Sample.inherit) src
  Tpl.render Sample.envD 10 ⟨fun p => if p = c!"d" then m.map (fun m => ⟨some [], m, true⟩) else none, 0⟩
    { t with schema := mergeSchema t.schema (.obj [(c!"config", .obj [(c!"debug_file", .str c!"d"), (c!"debug_expire", .num (.int 60))])]) }

/-- A fresh file, one that is just too old, one from the future, none. -/
example :
    Sample.outOf (Sample.goDebug (some 990) [(c!"k", .str c!"<v>")] c!"{:&debug; data->k :}|{:!debug; :}{:debug; data->x :}|{:debug; :}") =
      some (c!"&quot;&lt;v&gt;&quot;|Undefined: 'data->x'|" ++ VERSION, c!"200") ∧
    Sample.outOf (Sample.goDebug (some 939) [(c!"k", .str c!"<v>")] c!"[{:!debug; :}{:debug; data->k :}]") = some (c!"[]", c!"200") ∧
    Sample.outOf (Sample.goDebug (some 2000) [(c!"k", .str c!"<v>")] c!"[{:!debug; :}{:debug; data->k :}]") = some (c!"[]", c!"200") ∧
    Sample.outOf (Sample.goDebug none [(c!"k", .str c!"<v>")] c!"[{:!debug; :}{:debug; data->k :}]") = some (c!"[]", c!"200") := by
  refine ⟨?_, ?_, ?_, ?_⟩ <;> decide +kernel

end Nts
