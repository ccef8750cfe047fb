import Verif.Spec.Page
/-
Pages with cached parts in cached parts: how they are written, what they mean for a request, and how old what they show can be.
-/
set_option autoImplicit false
namespace Nts.Spec

/-- The parts of a page. -/
inductive Chunk
  /-- a template, evaluated where it stands -/
  | plain (l : List Node)
  /-- `{:cache; /expires/id/only/ >> body :}` -/
  | cached (expires id only : Str) (body : List Chunk)

mutual
/-- How a part is written. -/
def Chunk.print : Chunk → Str
  | .plain l => printAll l
  | .cached expires id only body =>
    bifText [] c!"cache" (c!" " ++ (c!"/" ++ expires ++ c!"/" ++ id ++ c!"/" ++ only ++ c!"/") ++ c!" >> " ++ printPieces body ++ c!" ")
/-- One after the other. -/
def printPieces : List Chunk → Str
  | [] => []
  | x :: l => x.print ++ printPieces l
end

/-- The file of the entry of a cached part, for a request with these data. -/
def pieceFile (env : Env) (S : Site) (C : Caching) (data : Obj) (expires id only : Str) (body : List Chunk) : Str :=
  entryFile env C.dir C.pre (idOf env S data expires id only (trim (printPieces body))) expires

/-- The text of a block without the outer white space, the data and the count it leaves, and the files and the clock after it. -/
def blockIn (run : Mem → World → Str × Mem × World) (m : Mem) (w : World) : Str × Mem × World :=
  (trim (run m w).1, { m with data := (run m w).2.1.data, bifs := (run m w).2.1.bifs }, (run m w).2.2)

/-- Is there an entry in the file, that has not expired?  Then its text is the result. -/
def freshIn (env : Env) (expires file : Str) (w : World) : Option Str :=
  match w.fs file with
  | none => none
  | some e => if e.mtime + lifetime expires < env.now w.tick then none else some (e.content.getD [])

/-- The files and the clock after looking for an entry: the clock has been read when there is one. -/
def looked (file : Str) (w : World) : World :=
  match w.fs file with
  | none => w
  | some _ => ⟨w.fs, w.tick + 1⟩

/-- A cached part: the text of its entry when there is one that has not expired; otherwise the part is evaluated — which may read
and store other entries — and then its text is stored. -/
def cachedIn (env : Env) (C : Caching) (expires file : Str) (run : Mem → World → Str × Mem × World) (m : Mem) (w : World) : Str × Mem × World :=
  if C.on m.data then
    match freshIn env expires file w with
    | some text => (text, m, looked file w)
    | none =>
      let r := blockIn run m (looked file w)
      (r.1, r.2.1, storedIn env r.2.2 file r.1)
  else blockIn run m w

mutual
/-- What a part means at a request; `al` is the name of the BIF it is in. -/
def Chunk.means (env : Env) (S : Site) (C : Caching) (al : Str) : Chunk → Mem → World → Str × Mem × World
  | .plain l, m, w => ((meansAll S al l m).1, (meansAll S al l m).2, w)
  | .cached expires id only body, m, w =>
    let r := cachedIn env C expires (pieceFile env S C m.data expires id only body) (piecesMean env S C c!"cache" body)
      { m with bifs := m.bifs + 1 } w
    (trim r.1, { r.2.1 with last := !r.1.isEmpty, lastC := !r.1.isEmpty }, r.2.2)
/-- One after the other. -/
def piecesMean (env : Env) (S : Site) (C : Caching) (al : Str) : List Chunk → Mem → World → Str × Mem × World
  | [], m, w => ([], m, w)
  | x :: l, m, w =>
    let r := x.means env S C al m w
    let r' := piecesMean env S C al l r.2.1 r.2.2
    (r.1 ++ r'.1, r'.2.1, r'.2.2)
end

mutual
/-- The parts are as required. -/
def Chunk.Ok (S : Site) (al : Str) : Chunk → Prop
  | .plain l => AllOk S al l
  | .cached expires id only body => ArgOk expires ∧ ArgOk id ∧ ArgOk only ∧ PiecesOk S c!"cache" body
/-- All of them. -/
def PiecesOk (S : Site) (al : Str) : List Chunk → Prop
  | [] => True
  | x :: l => x.Ok S al ∧ PiecesOk S al l
end

mutual
/-- The lifetimes of a part and of the parts in it. -/
def Chunk.lives : Chunk → List Str
  | .plain _ => []
  | .cached expires _ _ body => expires :: livesAll body
/-- Those of a page. -/
def livesAll : List Chunk → List Str
  | [] => []
  | x :: l => x.lives ++ livesAll l
end

/-- An evaluation of a template: what was evaluated, in which BIF, for which site and with which data, and when the request in
which that happened began. -/
structure Evaluation where
  S : Site
  al : Str
  l : List Node
  m : Mem
  at' : Nat

/-- The text it gave. -/
def Evaluation.text (v : Evaluation) : Str := (meansAll v.S v.al v.l v.m).1

mutual
/-- The evaluations that happen when a part is shown at a request that began at the time `t`: those of a template; those of the
parts of a cached part when its entry is not used. -/
def Chunk.evaluates (env : Env) (S : Site) (C : Caching) (t : Nat) (al : Str) : Chunk → Mem → World → List Evaluation
  | .plain l, m, _ => [⟨S, al, l, m, t⟩]
  | .cached expires id only body, m, w =>
    let file := pieceFile env S C m.data expires id only body
    if C.on m.data then
      match freshIn env expires file w with
      | some _ => []
      | none => piecesEvaluate env S C t c!"cache" body { m with bifs := m.bifs + 1 } (looked file w)
    else piecesEvaluate env S C t c!"cache" body { m with bifs := m.bifs + 1 } w
/-- One after the other. -/
def piecesEvaluate (env : Env) (S : Site) (C : Caching) (t : Nat) (al : Str) : List Chunk → Mem → World → List Evaluation
  | [], _, _ => []
  | x :: l, m, w =>
    x.evaluates env S C t al m w ++
      piecesEvaluate env S C t al l (x.means env S C al m w).2.1 (x.means env S C al m w).2.2
end

/-- Histories of a cache: requests of pages, by any requests with any data, one after the other, and between them anything that leaves
the entries of the cache as they are (time passes, other files change).  A request takes at most `d` seconds: what the clock shows
in it is not before its beginning and at most `d` later.  `known` are the cached parts of the pages. -/
inductive Asked (env : Env) (C : Caching) (known : Chunk → Prop) (d : Nat) (w0 : World) : List Evaluation → World → Prop
  | start : Asked env C known d w0 [] w0
  | ask {vs : List Evaluation} {w : World} (S : Site) (l : List Chunk) (m : Mem) : Asked env C known d w0 vs w →
      (∀ x ∈ l, known x) →
      (∀ t, w.tick ≤ t → t ≤ (piecesMean env S C [] l m w).2.2.tick → env.now w.tick ≤ env.now t ∧ env.now t ≤ env.now w.tick + d) →
      Asked env C known d w0 (vs ++ piecesEvaluate env S C (env.now w.tick) [] l m w) (piecesMean env S C [] l m w).2.2
  | other {vs : List Evaluation} {w w' : World} : Asked env C known d w0 vs w →
      (∀ text expires, w'.fs (entryFile env C.dir C.pre text expires) = w.fs (entryFile env C.dir C.pre text expires)) →
      Asked env C known d w0 vs w'

/-- Known parts: the parts in a known cached part are known, and two cached parts that can share an entry have the same parts in
them. -/
structure Separate (env : Env) (C : Caching) (known : Chunk → Prop) : Prop where
  inner : ∀ e i o body, known (.cached e i o body) → ∀ x ∈ body, known x
  entries : ∀ e i o body e' i' o' body', known (.cached e i o body) → known (.cached e' i' o' body') →
    ∀ S data S' data', pieceFile env S C data e i o body = pieceFile env S' C data' e' i' o' body' → body = body'

/-- `AgedText vs d t al l text`: the text is what the parts `l` in the BIF `al` show, made of the evaluations `vs`, such that those of the
templates among the parts are of requests that began at the time `t` or later, those of the templates in a cached part of these
with the lifetime `L` at the time `t - (L + d)` or later, and so on: at each level the lifetime and `d` earlier. -/
inductive AgedText (vs : List Evaluation) (d : Nat) : Nat → Str → List Chunk → Str → Prop
  | nil (t : Nat) (al : Str) : AgedText vs d t al [] []
  | plain {t : Nat} {al : Str} {p : List Chunk} {s : Str} (v : Evaluation) : v ∈ vs → v.al = al → t ≤ v.at' → AgedText vs d t al p s →
      AgedText vs d t al (.plain v.l :: p) (v.text ++ s)
  | cached {t : Nat} {al e i o x s : Str} {body p : List Chunk} : AgedText vs d (t - (lifetime e + d)) c!"cache" body x → AgedText vs d t al p s →
      AgedText vs d t al (.cached e i o body :: p) (trim x ++ s)

end Nts.Spec
