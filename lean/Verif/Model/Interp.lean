import Verif.Model.Bifs
/-
`Bif::new`, `Bif::parse` (/repo/src/bif/mod.rs) and `BlockParser::parse_with_blocks` (/repo/src/block_parser.rs).
-/
set_option autoImplicit false
namespace Nts

/-- `Bif::set_modifiers` (src/bif/mod.rs:250-273).  `&self.name[index..index + 1]` is a byte slice: it panics
(`none`) when the character there is not ASCII. -/
def setModifiers (b : BifS) : Str → Option (BifS × Str)
  | [] => some (b, [])
  | c :: r =>
    if c = '&' then setModifiers { b with modFilter := true } r
    else if c = '!' then setModifiers { b with modNegate := true } r
    else if c = '^' then setModifiers { b with modUpline := true } r
    else if c = '+' then setModifiers { b with modScope := true } r
    else if c.toNat < 128 then some (b, c :: r)
    else none

/-- `self.shared.schema["config"]["error"]["show"].as_bool()` (src/bif/mod.rs:133-135, 207-209). -/
def showErrors (sh : Shared) : Option Bool :=
  (((sh.schema.index c!"config").index c!"error").index c!"show").asBool?

/-- The error line (src/bif/mod.rs:213-218). -/
def errorLine (time : Str) (e : BifErr) : Str :=
  oneLine (c!"[" ++ time ++ c!"] Error (" ++ e.name ++ c!") " ++ e.msg ++ c!" file~: (" ++ e.file
    ++ c!") src: " ++ e.src)

/-- The end of `Bif::parse` (src/bif/mod.rs:232-240). -/
def bifFinish (s : St) : PRes :=
  let ne := !s.b.out.isEmpty
  .ok (trim (if s.b.modUpline then backspace ++ s.b.out else s.b.out)) s.sh
    { s.inh with lastBifOut := ne, lastCoalesceOut := ne }

/-- The match on the result of the BIF (src/bif/mod.rs:204-230).  `Local::now()` is one interaction with the
environment. -/
def bifResult (env : Env) : Res Unit → PRes
  | .ok _ s => bifFinish s
  | .err e s =>
    match showErrors s.sh with
    | none => .panic .unwrap
    | some _ =>
      let sh1 := { s.sh with w := { s.sh.w with tick := s.sh.w.tick + 1 } }
      bifFinish { s with sh := pushError sh1 (errorLine (env.localTime s.sh.w.tick) e) }
  | .panic p => .panic p
  | .oof => .oof

/-- Split a BIF into name and source (src/bif/mod.rs:122-127). -/
def bifSplit (raw : Str) : Option (Str × Str) :=
  (splitOnce c!";" (stripPrefixSuffix raw bifOpen bifClose)).map (fun p => (p.1, trim p.2))

/-- `Bif::parse` (src/bif/mod.rs:121-241) after `Bif::new`. -/
def bifParse (env : Env) (R : Rec) (sh : Shared) (inh : Inherit) (raw only : Str) : PRes :=
  match bifSplit raw with
  | none =>
    if !only.isEmpty then .ok raw sh inh
    else match showErrors sh with
      | none => .panic .unwrap
      | some _ => .ok [] (pushError sh (oneLine (c!"The delimiter was not found: " ++ raw))) inh
  | some (name, src) =>
    if !only.isEmpty && !contains only name && !inh.inOnly then .ok raw sh inh
    else match setModifiers { BifS.new with src := src } name with
      | none => .panic .bounds
      | some (b, name') =>
        bifResult env (run R (bifBody env name')
          { sh := sh, inh := { inh with inOnly := true }, b := { b with name := name', alias := name' }
            raw := raw, only := only })

/-- `Bif::new` (src/bif/mod.rs:81-118) and `Bif::parse`. -/
def runBif (env : Env) (R : Rec) (sh : Shared) (inh : Inherit) (raw only : Str) : PRes :=
  if sh.count + 1 > sh.max then .panic .budget
  else bifParse env R { sh with count := sh.count + 1 } { inh with bifCount := sh.count + 1 } raw only

/-- The loop of `parse_with_blocks` (src/block_parser.rs:159-190). -/
def blocksGo (env : Env) (R : Rec) (src only : Str) (prevEnd : Nat) (out : Str) :
    List (Nat × Nat) → Shared → Inherit → PRes
  | [], sh, inh => .ok (trim (out ++ src.drop prevEnd)) sh inh
  | (s, e) :: r, sh, inh =>
    if sh.exit then .ok out sh inh
    else
      let out1 := if prevEnd < s then out ++ slice src prevEnd s else out
      if startsWith c!"{:*" (slice src s e) || (inh.lastCoalesceOut && inh.alias = c!"coalesce") then
        blocksGo env R src only e out1 r sh inh
      else
        match runBif env R sh inh (slice src s e) only with
        | .ok x sh' inh' => blocksGo env R src only e (out1 ++ x) r sh' inh'
        | .panic p => .panic p
        | .oof => .oof

/-- `parse_with_blocks` (src/block_parser.rs:153-191) with recursion depth at most `n`. -/
def runBlocks (env : Env) : Nat → Rec
  | 0 => fun _ _ _ _ _ => .oof
  | n + 1 => fun sh inh src blocks only => blocksGo env (runBlocks env n) src only 0 [] blocks sh inh

end Nts
