import Verif.Model.Interp
/-
Two states that differ at most in the errors.
-/
set_option autoImplicit false
namespace Nts.Spec

/-- `sh'` is `sh` but for the list of errors (`__error` in the schema), the flag `has_error` and the time that has passed (every error
is written with its time). -/
structure ButErrors (sh sh' : Shared) : Prop where
  rest : sh' = { sh with schema := sh'.schema, hasError := sh'.hasError, w := { sh.w with tick := sh'.w.tick } }
  schema : ∀ key, key ≠ c!"__error" → sh'.schema.get? key = sh.schema.get? key

end Nts.Spec
