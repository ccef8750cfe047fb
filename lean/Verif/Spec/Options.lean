import Verif.Spec.Lang
import Verif.Model.Template
/-
The options of a schema, as the documentation describes them (doc: `config` of the schema).
-/
set_option autoImplicit false
namespace Nts.Spec

/-- The value of an option (`none` when it is not there). -/
def option (s : Value) (key : Str) : Option Value :=
  match s with
  | .obj o =>
    match Obj.get? c!"config" o with
    | some (.obj c) => Obj.get? key c
    | _ => none
  | _ => none

/-- Is an option on? -/
def optionOn (F : F64Ops) (s : Value) (key : Str) : Bool := truth F c!"bool" (option s key)

/-- The text of an option. -/
def optionText (F : F64Ops) (s : Value) (key : Str) : Str := shownAs F (option s key)

/-- The language: the entry `current` of `locale` of `inherit`. -/
def languageOf (F : F64Ops) (s : Value) : Str :=
  match s with
  | .obj o =>
    match Obj.get? c!"inherit" o with
    | some (.obj i) =>
      match Obj.get? c!"locale" i with
      | some (.obj l) => shownAs F (Obj.get? c!"current" l)
      | _ => []
    | _ => []
  | _ => []

/-- The definitions of a schema. -/
def definitionsOf (s : Value) : Obj :=
  match s with
  | .obj o =>
    match Obj.get? c!"inherit" o with
    | some (.obj i) => i
    | _ => []
  | _ => []

/-- The site that a schema and the files make. -/
def siteFrom (env : Env) (w : World) (s : Value) : Site where
  F := env.f64
  filterAll := optionOn env.f64 s c!"filter_all"
  sanitize := !optionOn env.f64 s c!"cache_disable"
  lang := languageOf env.f64 s
  file := fun path =>
    match w.fs path, env.canon path with
    | some e, .ok _ => e.content
    | _, _ => none
  json := env.jsonParse
  md5 := env.md5
  snippets := entry (definitionsOf s) c!"snippets"
  declared := entry (definitionsOf s) c!"declare"

end Nts.Spec
