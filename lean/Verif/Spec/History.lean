import Verif.Model.Template
/-
Specification vocabulary for histories of API calls on a template.
-/
set_option autoImplicit false
namespace Nts.Spec

/-- The templates a program can have in its hands: made by `new` or `from_file_value`, then changed by any sequence
of setting the source, merging schemas and rendering (each call may see another world). -/
inductive Reach (env : Env) : Tpl → Prop
  | new {w : World} {t : Tpl} : Tpl.new env w = .ok t → Reach env t
  | fromFile {w : World} {path : Str} {v : Value} {t : Tpl} : Tpl.fromFileValue env w path v = .ok t → Reach env t
  | setSrcPath {t : Tpl} (w : World) (path : Str) : Reach env t → Reach env (t.setSrcPath env w path).1
  | setSrcStr {t : Tpl} (src : Str) : Reach env t → Reach env (t.setSrcStr src)
  | mergeStr {t t' : Tpl} {text : Str} : Reach env t → t.mergeSchemaStr env text = .ok t' → Reach env t'
  | mergePath {t t' : Tpl} {w : World} {path : Str} : Reach env t → t.mergeSchemaPath env w path = .ok t' → Reach env t'
  | mergeValue {t t' : Tpl} {v : Value} : Reach env t → t.mergeSchemaValue v = .ok t' → Reach env t'
  | mergeMsgpack {t t' : Tpl} {d : Except Str Value} : Reach env t → t.mergeSchemaMsgpack d = .ok t' → Reach env t'
  | fromMsgpack {w : World} {path : Str} {e : Bool} {d : Except Str Value} {t : Tpl} :
      Tpl.fromFileMsgpack env w path e d = .ok t → Reach env t
  | mergeMsgpackPath {t t' : Tpl} {w : World} {path : Str} {d : Except Str Value} : Reach env t →
      t.mergeSchemaMsgpackPath env w path d = .ok t' → Reach env t'
  | render {t t' : Tpl} {n : Nat} {w : World} : Reach env t → t.render env n w = .ok t' → Reach env t'
  | renderOnce {t t' : Tpl} {n : Nat} {w : World} : Reach env t → t.renderOnce env n w = .ok t' → Reach env t'

/-- The reason phrases, by number. -/
def reasonPhrases : List (Nat × Str) := [
  (100, c!"Continue"), (101, c!"Switching Protocols"), (103, c!"Early Hints"), (200, c!"OK"), (201, c!"Created"),
  (202, c!"Accepted"), (203, c!"Non-Authoritative Information"), (204, c!"No Content"), (205, c!"Reset Content"),
  (206, c!"Partial Content"), (208, c!"Already Reported"), (226, c!"IM Used"), (300, c!"Multiple Choices"),
  (301, c!"Moved Permanently"), (302, c!"Found"), (303, c!"See Other"), (304, c!"Not Modified"),
  (305, c!"Use Proxy"), (306, c!"Switch Proxy"), (307, c!"Temporary Redirect"), (308, c!"Permanent Redirect"),
  (400, c!"Bad Request"), (401, c!"Unauthorized"), (402, c!"Payment Required"), (403, c!"Forbidden"),
  (404, c!"Not Found"), (405, c!"Method Not Allowed"), (406, c!"Not Acceptable"),
  (407, c!"Proxy Authentication Required"), (408, c!"Request Time-out"), (409, c!"Conflict"), (410, c!"Gone"),
  (411, c!"Length Required"), (412, c!"Precondition Failed"), (413, c!"Payload Too Large"),
  (414, c!"URI Too Long"), (415, c!"Unsupported Media Type"), (416, c!"Range Not Satisfiable"),
  (417, c!"Expectation Failed"), (421, c!"Misdirected Request"), (422, c!"Unprocessable Entity"), (423, c!"Locked"),
  (424, c!"Failed Dependency"), (425, c!"Too Early"), (426, c!"Upgrade Required"),
  (428, c!"Precondition Required"), (429, c!"Too Many Requests"), (431, c!"Request Header Fields Too Large"),
  (451, c!"Unavailable For Legal Reasons"), (500, c!"Internal Server Error"), (501, c!"Not Implemented"),
  (502, c!"Bad Gateway"), (503, c!"Service Unavailable"), (504, c!"Gateway Time-out"),
  (505, c!"HTTP Version Not Supported"), (506, c!"Variant Also Negotiates (Experimental)"), (510, c!"Not Extended"),
  (511, c!"Network Authentication Required")]

/-- `text` is the standard text of `code`: the reason phrase of the number it spells, or empty for any other code. -/
def IsStandardText (code text : Str) : Prop :=
  (∃ n, code = showNat n ∧ (n, text) ∈ reasonPhrases) ∨
  ((∀ n t, (n, t) ∈ reasonPhrases → code ≠ showNat n) ∧ text = [])

/-- The list of errors of a shared state. -/
def errorsOf (sh : Shared) : Value := sh.schema.index c!"__error"

end Nts.Spec
