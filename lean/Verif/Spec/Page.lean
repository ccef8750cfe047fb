import Verif.Spec.Lang
import Verif.Spec.Cache
/-
Pages with cached parts: how they are written, and what they mean for a sequence of requests.  The meaning is a function of the
data of the request, of the entries of the cache and of the clock.
-/
set_option autoImplicit false
namespace Nts.Spec

/-- The parts of a page. -/
inductive Part
  /-- a template, evaluated at each request -/
  | plain (l : List Node)
  /-- `{:cache; /expires/id/only/ >> l :}` -/
  | cached (expires id only : Str) (l : List Node)

/-- How a page is written. -/
def Part.print : Part → Str
  | .plain l => printAll l
  | .cached expires id only l =>
    bifText [] c!"cache" (c!" " ++ (c!"/" ++ expires ++ c!"/" ++ id ++ c!"/" ++ only ++ c!"/") ++ c!" >> " ++ printAll l ++ c!" ")

/-- One after the other. -/
def printPage : List Part → Str
  | [] => []
  | x :: l => x.print ++ printPage l

/-- The settings of the cache. -/
structure Caching where
  dir : Str
  pre : Str
  disabled : Bool
  onPost : Bool
  onGet : Bool
  onCookies : Bool

/-- Is the cache used for a request with these data? -/
def Caching.on (C : Caching) (data : Obj) : Prop :=
  C.disabled = false ∧ (given (.obj data) c!"POST" = true → C.onPost = true) ∧ (given (.obj data) c!"GET" = true → C.onGet = true) ∧
    (given (.obj data) c!"COOKIES" = true → C.onCookies = true)

instance (C : Caching) (data : Obj) : Decidable (C.on data) := by unfold Caching.on; infer_instance

/-- What identifies a cached part in a request: the given `id`, and, unless only that is asked for, the language, the lifetime,
the request data, the host, the route and the code. -/
def idOf (env : Env) (S : Site) (data : Obj) (expires id only code : Str) : Str :=
  if OnlyId only then id
  else
    let ctx := entry data c!"CONTEXT"
    let text := fun k => if given (.obj data) k then env.jsonShow (ctx.index k) else []
    id ++ S.lang ++ expires ++ text c!"POST" ++ text c!"GET" ++ text c!"COOKIES" ++
      shownAs S.F (resolvePointer (.obj data) c!"CONTEXT->HOST") ++ shownAs S.F (resolvePointer (.obj data) c!"CONTEXT->ROUTE") ++ code

/-- The file of the entry. -/
def fileOf (env : Env) (S : Site) (C : Caching) (data : Obj) (expires id only : Str) (l : List Node) : Str :=
  entryFile env C.dir C.pre (idOf env S data expires id only (trim (printAll l))) expires

/-- A text stored in a file, now. -/
def storedIn (env : Env) (w : World) (file text : Str) : World :=
  ⟨fun x => if x = file then some ⟨some text, env.now w.tick, true⟩ else w.fs x, w.tick + 1⟩

/-- A cached part: the text of the entry when there is one that has not expired; otherwise the part is evaluated and its
text stored. -/
def cachedOf (env : Env) (S : Site) (C : Caching) (expires id only : Str) (l : List Node) (m : Mem) (w : World) : Str × Mem × World :=
  let run := blockOf false (meansAll S c!"cache" l)
  if C.on m.data then
    let file := fileOf env S C m.data expires id only l
    match w.fs file with
    | none => ((run m).1, (run m).2, storedIn env w file (run m).1)
    | some e =>
      let w1 : World := ⟨w.fs, w.tick + 1⟩
      if e.mtime + lifetime expires < env.now w.tick then ((run m).1, (run m).2, storedIn env w1 file (run m).1)
      else (e.content.getD [], m, w1)
  else ((run m).1, (run m).2, w)

/-- What a part means at a request. -/
def Part.means (env : Env) (S : Site) (C : Caching) : Part → Mem → World → Str × Mem × World
  | .plain l, m, w => ((meansAll S [] l m).1, (meansAll S [] l m).2, w)
  | .cached expires id only l, m, w =>
    let r := cachedOf env S C expires id only l { m with bifs := m.bifs + 1 } w
    (trim r.1, { r.2.1 with last := !r.1.isEmpty, lastC := !r.1.isEmpty }, r.2.2)

/-- One after the other. -/
def pageMeans (env : Env) (S : Site) (C : Caching) : List Part → Mem → World → Str × Mem × World
  | [], m, w => ([], m, w)
  | x :: l, m, w =>
    let r := x.means env S C m w
    let r' := pageMeans env S C l r.2.1 r.2.2
    (r.1 ++ r'.1, r'.2.1, r'.2.2)

/-- An argument of `cache`. -/
def ArgOk (a : Str) : Prop := ∀ c ∈ a, c ≠ '/' ∧ c ≠ '{' ∧ c ≠ '}' ∧ c ≠ ':' ∧ c ≠ '>'

/-- The parts are as required. -/
def Part.Ok (S : Site) : Part → Prop
  | .plain l => AllOk S [] l
  | .cached expires id only l => ArgOk expires ∧ ArgOk id ∧ ArgOk only ∧ AllOk S c!"cache" l

/-- The lifetimes of a page. -/
def lifetimes : List Part → List Str
  | [] => []
  | .plain _ :: l => lifetimes l
  | .cached expires _ _ _ :: l => expires :: lifetimes l

/-- The files can be read, and neither the times of the files nor those the clock gives are at the end of time. -/
structure Sane (env : Env) (expires : List Str) (w : World) : Prop where
  readable : ∀ file e, w.fs file = some e → ∃ t, e.content = some t
  files : ∀ file e x, w.fs file = some e → x ∈ expires → e.mtime + lifetime x < 2 ^ 64
  clock : ∀ t x, x ∈ expires → env.now t + lifetime x < 2 ^ 64

/-- Storing does not fail. -/
structure Writable (env : Env) : Prop where
  dirs : ∀ t d, env.mkdirErr t d = none
  files : ∀ t f, env.createErr t f = none
  write : ∀ t f, env.writeErr t f = none

/-- No file of the site is an entry of the cache. -/
def NotEntries (env : Env) (S : Site) (C : Caching) : Prop := ∀ text expires, S.file (entryFile env C.dir C.pre text expires) = none

/-- The page with the cached parts as code. -/
def asCode : List Part → List Part
  | [] => []
  | .plain l :: p => .plain l :: asCode p
  | .cached _ _ _ l :: p => .plain [.code false l] :: asCode p

/-- At its turn, no cached part of the page finds an entry that has not expired. -/
def NoneFresh (env : Env) (S : Site) (C : Caching) : List Part → Mem → World → Prop
  | [], _, _ => True
  | x :: l, m, w =>
    (match x with
      | .plain _ => True
      | .cached expires id only b => C.on m.data → ∀ e, w.fs (fileOf env S C m.data expires id only b) = some e →
          e.mtime + lifetime expires < env.now w.tick) ∧
      NoneFresh env S C l (x.means env S C m w).2.1 (x.means env S C m w).2.2

/-- A visit of a cached part: the part, the site and the data of the request, and the files and the clock at that moment. -/
structure Visit where
  S : Site
  expires : Str
  id : Str
  only : Str
  l : List Node
  m : Mem
  w : World

/-- The text that evaluating the part gives in this visit. -/
def Visit.evaluated (v : Visit) : Str := trim (meansAll v.S c!"cache" v.l v.m).1

/-- What the visit gives. -/
def Visit.gives (env : Env) (C : Caching) (v : Visit) : Str := (cachedOf env v.S C v.expires v.id v.only v.l v.m v.w).1

/-- The file of its entry. -/
def Visit.file (env : Env) (C : Caching) (v : Visit) : Str := fileOf env v.S C v.m.data v.expires v.id v.only v.l

/-- Histories of a cache: visits of cached parts, by any requests and for any pages of a site, one after the other, and between
them anything that leaves the entries of the cache as they are (time passes, other files change). -/
inductive History (env : Env) (C : Caching) (w0 : World) : List Visit → World → Prop
  | start : History env C w0 [] w0
  | visit {vs : List Visit} {w : World} (v : Visit) : History env C w0 vs w → v.w = w →
      History env C w0 (vs ++ [v]) (cachedOf env v.S C v.expires v.id v.only v.l v.m v.w).2.2
  | other {vs : List Visit} {w w' : World} : History env C w0 vs w →
      (∀ text expires, w'.fs (entryFile env C.dir C.pre text expires) = w.fs (entryFile env C.dir C.pre text expires)) →
      History env C w0 vs w'

/-- The pieces of a page: a text, or what a visit gives. -/
inductive Bit
  | text (t : Str)
  | visit (v : Visit)

/-- The pieces of a page at a request. -/
def bitsOf (env : Env) (S : Site) (C : Caching) : List Part → Mem → World → List Bit
  | [], _, _ => []
  | x :: l, m, w =>
    (match x with
      | .plain b => .text (meansAll S [] b m).1
      | .cached expires id only b => .visit ⟨S, expires, id, only, b, { m with bifs := m.bifs + 1 }, w⟩) ::
      bitsOf env S C l (x.means env S C m w).2.1 (x.means env S C m w).2.2

/-- The visits among the pieces. -/
def visitsOf : List Bit → List Visit
  | [] => []
  | .text _ :: l => visitsOf l
  | .visit v :: l => v :: visitsOf l

/-- The text of the pieces. -/
def textOfBits (env : Env) (C : Caching) : List Bit → Str
  | [] => []
  | .text t :: l => t ++ textOfBits env C l
  | .visit v :: l => trim (v.gives env C) ++ textOfBits env C l

end Nts.Spec
