import Verif.Spec.Eval
/-
What identifies an entry of the cache (doc/bif-cache.md).
-/
set_option autoImplicit false
namespace Nts.Spec

/-- What a cached block depends on. -/
structure Request where
  /-- the literal given as `id` -/
  id : Str
  lang : Str
  expires : Str
  /-- the POST, GET and cookie data as JSON text, empty when there is none -/
  post : Str
  get : Str
  cookies : Str
  host : Str
  route : Str
  code : Str

/-- Something is given under this key of the request data. -/
def given (data : Value) (k : Str) : Bool := !isEmptyKey (data.index c!"CONTEXT") k

/-- The request of a cached block in a state: `id` and `expires` are its arguments, `code` its code. -/
def requestOf (env : Env) (sh : Shared) (was : Value) (id expires code : Str) : Request :=
  let ctx := (sh.schema.index c!"data").index c!"CONTEXT"
  let text := fun k => if given was k then env.jsonShow (ctx.index k) else []
  { id := id, lang := sh.lang, expires := expires
    post := text c!"POST", get := text c!"GET", cookies := text c!"COOKIES"
    host := getFromKey env.f64 (sh.schema.index c!"data") c!"CONTEXT->HOST"
    route := getFromKey env.f64 (sh.schema.index c!"data") c!"CONTEXT->ROUTE", code := code }

/-- The text that identifies a request. -/
def Request.text (r : Request) : Str :=
  r.id ++ r.lang ++ r.expires ++ r.post ++ r.get ++ r.cookies ++ r.host ++ r.route ++ r.code

/-- The directory of the entry with this identification. -/
def entryDir (env : Env) (dir pre text : Str) : Str :=
  dir ++ (if pre = [] then [] else c!"/" ++ pre) ++ c!"/" ++ (env.sha256 text).take 3

/-- The file of the entry with this identification. -/
def entryFile (env : Env) (dir pre text expires : Str) : Str :=
  entryDir env dir pre text ++ c!"/" ++ env.sha256 text ++ c!"-" ++ expires

/-- The cache is used for this request. -/
def CacheOn (sh : Shared) : Prop :=
  sh.cacheDisable = false ∧
    (given (sh.schema.index c!"data") c!"POST" = true → sh.cacheOnPost = true) ∧
    (given (sh.schema.index c!"data") c!"GET" = true → sh.cacheOnGet = true) ∧
    (given (sh.schema.index c!"data") c!"COOKIES" = true → sh.cacheOnCookies = true)

/-- The third argument asks for the given `id` only. -/
def OnlyId (a : Str) : Bool := !(a == [] || a == c!"false" || a == c!"0")

/-- The identification of a request, given the arguments. -/
def identification (r : Request) (only : Str) : Str := if OnlyId only then r.id else r.text

/-- Lifetime in seconds; texts that are not numbers count as 0. -/
def lifetime (expires : Str) : Nat := (parseU64 expires).getD 0

/-- A clock reading has been made. -/
def ticked (sh : Shared) : Shared := { sh with w := { sh.w with tick := sh.w.tick + 1 } }

/-- A text has been stored in a file at a time. -/
def stored (sh : Shared) (file text : Str) (time : Nat) : Shared :=
  { sh with w := { sh.w with fs := fun x => if x = file then some ⟨some text, time, true⟩ else sh.w.fs x } }

end Nts.Spec
