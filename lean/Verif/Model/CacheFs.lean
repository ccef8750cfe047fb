/-
Several renders that use the same cache entry at the same time (src/bif/parse_bif_cache.rs:108-189), one system call at
a time.

Modelled: the file of one entry, any number of renders (numbered by naturals) that look it up, read or write it in calls
of any size, a clock, failures and crashes at any point.  A call that is not atomic is a sequence of smaller calls.
Simplified: nobody removes the file while renders run; creating the directory is part of a failed creation; the text a
render would store is a parameter (evaluating the code is in Model/Bifs.lean).
-/
set_option autoImplicit false
namespace Nts.Fs

abbrev Bytes := List UInt8

/-- What does not change: the text render `p` gets when it evaluates the code itself, whether its code has a BIF in it
(`self.code.contains(BIF_OPEN)`, parse_bif_cache.rs:115), the lifetime of the entry (`expires`, seconds), and which byte strings
are UTF-8 (`fs::read_to_string` fails on others, parse_bif_cache.rs:111). -/
structure Cfg where
  text : Nat → Bytes
  bifs : Nat → Bool
  life : Nat
  valid : Bytes → Bool

/-- Where a render is. -/
inductive Phase
  /-- before `file_path.exists()` (parse_bif_cache.rs:108) -/
  | start
  /-- the file exists; before `SystemTime::now()` (parse_bif_cache.rs:162) -/
  | found
  /-- the clock was read; before `fs::metadata` (parse_bif_cache.rs:167) -/
  | aged (t : Nat)
  /-- not expired; before the open of `fs::read_to_string` (parse_bif_cache.rs:111) -/
  | opening
  /-- reading, with the bytes read so far (parse_bif_cache.rs:111) -/
  | reading (acc : Bytes)
  /-- no usable entry: before `File::create` (parse_bif_cache.rs:124-137) -/
  | evaluating
  /-- in `write_all`, with the number of bytes written so far (parse_bif_cache.rs:139) -/
  | writing (off : Nat)
  /-- the block has given this output -/
  | done (out : Bytes)
  /-- the process died -/
  | crashed

/-- The system: the file with its modification time, the clock, the renders. -/
structure Sys where
  file : Option (Bytes × Nat)
  now : Nat
  phase : Nat → Phase

/-- What can happen. `k` bounds the size of a call (`k + 1` bytes). -/
inductive Act
  | exists_ (p : Nat)
  | clock (p : Nat)
  | metadata (p : Nat)
  | open_ (p : Nat)
  | read (p k : Nat)
  | create (p : Nat)
  | createFails (p : Nat)
  | write (p k : Nat)
  | writeFails (p : Nat)
  | crash (p : Nat)
  | time (n : Nat)

/-- Render `p` goes to phase `x`. -/
def Sys.go (s : Sys) (p : Nat) (x : Phase) : Sys := { s with phase := fun q => if q = p then x else s.phase q }

/-- The file after writing `chunk` at offset `off`; bytes never written read as 0 (POSIX). -/
def writeAt (f : Bytes) (off : Nat) (chunk : Bytes) : Bytes :=
  f.take off ++ List.replicate (off - f.length) 0 ++ chunk ++ f.drop (off + chunk.length)

/-- The reader has reached the end of the file: its output is what it read, or, if that is not UTF-8, its own evaluation,
which is skipped, with nothing printed, when the code has no BIF in it (parse_bif_cache.rs:111-123). -/
def readEnd (c : Cfg) (p : Nat) (acc : Bytes) : Phase :=
  .done (if c.valid acc then acc else if c.bifs p then c.text p else [])

/-- One step; `none` if the action is not possible in this state (parse_bif_cache.rs:108-156, 161-190). -/
def step (c : Cfg) (s : Sys) : Act → Option Sys
  | .exists_ p => match s.phase p with
    | .start => some (s.go p (if s.file.isSome then .found else .evaluating))
    | _ => none
  | .clock p => match s.phase p with
    | .found => some (s.go p (.aged s.now))
    | _ => none
  | .metadata p => match s.phase p, s.file with
    | .aged t, some (_, m) => some (s.go p (if t > m + c.life then .evaluating else .opening))
    | _, _ => none
  | .open_ p => match s.phase p with
    | .opening => some (s.go p (.reading []))
    | _ => none
  | .read p k => match s.phase p, s.file with
    | .reading acc, some (f, _) =>
      if (f.drop acc.length) = [] then some (s.go p (readEnd c p acc))
      else some (s.go p (.reading (acc ++ (f.drop acc.length).take (k + 1))))
    | _, _ => none
  | .create p => match s.phase p with
    | .evaluating => some { s.go p (.writing 0) with file := some ([], s.now) }
    | _ => none
  | .createFails p => match s.phase p with
    | .evaluating => some (s.go p (.done (c.text p)))
    | _ => none
  | .write p k => match s.phase p, s.file with
    | .writing off, some (f, m) =>
      if (c.text p).drop off = [] then some (s.go p (.done (c.text p)))
      else
        let chunk := ((c.text p).drop off).take (k + 1)
        some { s.go p (.writing (off + chunk.length)) with file := some (writeAt f off chunk, s.now) }
    | _, _ => none
  | .writeFails p => match s.phase p with
    | .writing _ => some (s.go p (.done (c.text p)))
    | _ => none
  | .crash p => match s.phase p with
    | .done _ => none
    | _ => some (s.go p .crashed)
  | .time n => some { s with now := s.now + n }

/-- A history: the actions are possible one after the other. -/
inductive Runs (c : Cfg) : Sys → List Act → Sys → Prop
  | nil (s : Sys) : Runs c s [] s
  | snoc {s s1 s2 : Sys} {l : List Act} {a : Act} : Runs c s l s1 → step c s1 a = some s2 → Runs c s (l ++ [a]) s2

/-- Nothing has happened: there is no entry. -/
def fresh (now : Nat) : Sys := ⟨none, now, fun _ => .start⟩

/-- Is this render writing? -/
def Phase.isWriting : Phase → Bool
  | .writing _ => true
  | _ => false

/-- Is this render reading? -/
def Phase.isReading : Phase → Bool
  | .reading _ => true
  | _ => false

end Nts.Fs
