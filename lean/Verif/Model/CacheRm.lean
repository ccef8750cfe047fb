import Verif.Model.CacheFs
/-
Renders that use one cache entry (src/bif/parse_bif_cache.rs:108-189) while the script cache-utils/clean-cache runs, one system
call at a time.

Modelled: the name of one entry and the files behind it (POSIX: a removed file lives on for those who have it open), its directory,
any number of renders and any number of runs of the script (both numbered by naturals), a clock, failures and crashes at any
point, and whether a block of a render ends with an error.  Simplified: the text a render would store is a parameter (evaluating
the code is in Model/Bifs.lean); the directory holds no other entry (others only keep it from being removed); after a decision on
the entry the script may start again at once; which names the script looks at is in Model/Clean.lean.
-/
set_option autoImplicit false
namespace Nts.Rm

abbrev Bytes := List UInt8

/-- What does not change: the text render `p` gets when it evaluates the code itself, whether its code has a BIF in it
(`self.code.contains(BIF_OPEN)`, parse_bif_cache.rs:115), the lifetime of the entry as a render reads it (parse_bif_cache.rs:109)
and as the script reads it (cache-utils/clean-cache:12, 16; `none`: it never finds it expired), and which byte strings are UTF-8
(`fs::read_to_string` fails on others, parse_bif_cache.rs:111). -/
structure Cfg where
  text : Nat → Bytes
  bifs : Nat → Bool
  life : Nat
  lifeRm : Option Int
  valid : Bytes → Bool

/-- Where a render is. -/
inductive Phase
  /-- before `file_path.exists()` (parse_bif_cache.rs:108) -/
  | start
  /-- the file exists; before `SystemTime::now()` (parse_bif_cache.rs:162) -/
  | found
  /-- the clock was read; before `fs::metadata` (parse_bif_cache.rs:167) -/
  | aged (t : Nat)
  /-- not expired; before the open of `fs::read_to_string` (parse_bif_cache.rs:111) -/
  | opening
  /-- reading a file, with the bytes read so far (parse_bif_cache.rs:111) -/
  | reading (ino : Nat) (acc : Bytes)
  /-- no usable entry: before `fs::create_dir_all` (parse_bif_cache.rs:124-134) -/
  | evaluating
  /-- before `File::create` (parse_bif_cache.rs:137) -/
  | creating
  /-- in `write_all` to a file, with the number of bytes written so far (parse_bif_cache.rs:139) -/
  | writing (ino off : Nat)
  /-- the block has given this output, with an error or without -/
  | done (out : Bytes) (err : Bool)
  /-- the process died -/
  | crashed

/-- Where a run of the script is (cache-utils/clean-cache:9-20, 38-49). -/
inductive Sweep
  /-- before `date +%s` -/
  | idle
  /-- before `stat` -/
  | timed (t : Nat)
  /-- `is_expired` was true; before `rm` -/
  | doomed

/-- The system: does the directory exist, the file behind the name of the entry, the contents and modification times of files, the
number of files created so far, the clock, the renders, the runs of the script. -/
structure Sys where
  dir : Bool
  link : Option Nat
  node : Nat → Bytes × Nat
  next : Nat
  now : Nat
  phase : Nat → Phase
  sweep : Nat → Sweep

/-- What can happen. `k` bounds the size of a call (`k + 1` bytes). -/
inductive Act
  | exists_ (p : Nat)
  | clock (p : Nat)
  | metadata (p : Nat)
  | open_ (p : Nat)
  | openFails (p : Nat)
  | read (p k : Nat)
  | readFails (p : Nat)
  | mkdir (p : Nat)
  | mkdirFails (p : Nat)
  | create (p : Nat)
  | createFails (p : Nat)
  | write (p k : Nat)
  | writeFails (p : Nat)
  | crash (p : Nat)
  | time (n : Nat)
  | date (r : Nat)
  | stat (r : Nat)
  | rm (r : Nat)
  | rmFails (r : Nat)
  | rmdir (r : Nat)

/-- Render `p` goes to phase `x`. -/
def Sys.go (s : Sys) (p : Nat) (x : Phase) : Sys := { s with phase := fun q => if q = p then x else s.phase q }

/-- Run `r` of the script goes to `x`. -/
def Sys.to (s : Sys) (r : Nat) (x : Sweep) : Sys := { s with sweep := fun q => if q = r then x else s.sweep q }

/-- File `i` gets the content `f`, now. -/
def Sys.put (s : Sys) (i : Nat) (f : Bytes) : Sys := { s with node := fun j => if j = i then (f, s.now) else s.node j }

/-- The entry cannot be read: the code is evaluated if it has a BIF in it, otherwise nothing is printed; an error in both cases
(parse_bif_cache.rs:113-123). -/
def unread (c : Cfg) (p : Nat) : Phase := .done (if c.bifs p then c.text p else []) true

/-- The reader has reached the end of the file (parse_bif_cache.rs:111-123). -/
def readEnd (c : Cfg) (p : Nat) (acc : Bytes) : Phase := if c.valid acc then .done acc false else unread c p

/-- `is_expired` of the script with the clock `t` and the modification time `m` (cache-utils/clean-cache:13-16). -/
def expired (c : Cfg) (t m : Nat) : Bool := c.lifeRm.any (fun life => decide ((t : Int) - m ≥ life))

/-- One step; `none` if the action is not possible in this state (parse_bif_cache.rs:108-156, 161-215,
cache-utils/clean-cache:38-49). -/
def step (c : Cfg) (s : Sys) : Act → Option Sys
  | .exists_ p => match s.phase p with
    | .start => some (s.go p (if s.link.isSome then .found else .evaluating))
    | _ => none
  | .clock p => match s.phase p with
    | .found => some (s.go p (.aged s.now))
    | _ => none
  | .metadata p => match s.phase p with
    | .aged t => some (s.go p (match s.link with
      | none => .evaluating
      | some i => if t > (s.node i).2 + c.life then .evaluating else .opening))
    | _ => none
  | .open_ p => match s.phase p with
    | .opening => some (s.go p (match s.link with
      | none => unread c p
      | some i => .reading i []))
    | _ => none
  | .openFails p => match s.phase p with
    | .opening => some (s.go p (unread c p))
    | _ => none
  | .read p k => match s.phase p with
    | .reading i acc =>
      if (s.node i).1.drop acc.length = [] then some (s.go p (readEnd c p acc))
      else some (s.go p (.reading i (acc ++ ((s.node i).1.drop acc.length).take (k + 1))))
    | _ => none
  | .readFails p => match s.phase p with
    | .reading _ _ => some (s.go p (unread c p))
    | _ => none
  | .mkdir p => match s.phase p with
    | .evaluating => some { s.go p .creating with dir := true }
    | _ => none
  | .mkdirFails p => match s.phase p with
    | .evaluating => some (s.go p (.done (c.text p) true))
    | _ => none
  | .create p => match s.phase p with
    | .creating =>
      match s.link with
      | some i => some ((s.put i []).go p (.writing i 0))
      | none =>
        if s.dir then some { (s.put s.next []).go p (.writing s.next 0) with link := some s.next, next := s.next + 1 }
        else some (s.go p (.done (c.text p) true))
    | _ => none
  | .createFails p => match s.phase p with
    | .creating => some (s.go p (.done (c.text p) true))
    | _ => none
  | .write p k => match s.phase p with
    | .writing i off =>
      if (c.text p).drop off = [] then some (s.go p (.done (c.text p) false))
      else
        let chunk := ((c.text p).drop off).take (k + 1)
        some ((s.put i (Fs.writeAt (s.node i).1 off chunk)).go p (.writing i (off + chunk.length)))
    | _ => none
  | .writeFails p => match s.phase p with
    | .writing _ _ => some (s.go p (.done (c.text p) true))
    | _ => none
  | .crash p => match s.phase p with
    | .done _ _ => none
    | _ => some (s.go p .crashed)
  | .time n => some { s with now := s.now + n }
  | .date r => match s.sweep r with
    | .idle => some (s.to r (.timed s.now))
    | _ => none
  | .stat r => match s.sweep r with
    | .timed t => some (s.to r (if s.link.any (fun i => expired c t (s.node i).2) then .doomed else .idle))
    | _ => none
  | .rm r => match s.sweep r with
    | .doomed => some { s.to r .idle with link := none }
    | _ => none
  | .rmFails r => match s.sweep r with
    | .doomed => some (s.to r .idle)
    | _ => none
  | .rmdir r => match s.sweep r with
    | .idle => if s.link = none then some { s with dir := false } else none
    | _ => none

/-- A history: the actions are possible one after the other. -/
inductive Runs (c : Cfg) : Sys → List Act → Sys → Prop
  | nil (s : Sys) : Runs c s [] s
  | snoc {s s1 s2 : Sys} {l : List Act} {a : Act} : Runs c s l s1 → step c s1 a = some s2 → Runs c s (l ++ [a]) s2

/-- Nothing has happened: there is no directory and no entry. -/
def fresh (now : Nat) : Sys := ⟨false, none, fun _ => ([], 0), 0, now, fun _ => .start, fun _ => .idle⟩

/-- Is this render writing? -/
def Phase.isWriting : Phase → Bool
  | .writing _ _ => true
  | _ => false

/-- Is this render reading? -/
def Phase.isReading : Phase → Bool
  | .reading _ _ => true
  | _ => false

end Nts.Rm
