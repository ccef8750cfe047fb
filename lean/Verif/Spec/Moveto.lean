import Verif.Spec.Eval
import Verif.Model.Template
/-
What `moveto` does (doc/bif-moveto.md).
-/
set_option autoImplicit false
namespace Nts.Spec

/-- Without spaces and newlines. -/
def squeeze (x : Str) : Str := x.filter (fun c => !(c == ' ' || c == '\n'))

/-- `TagOf written searched`: the target can be written `tag`, `<tag`, `tag>` or `<tag>`; `<tag` is searched. -/
inductive TagOf : Str → Str → Prop
  | plain {n : Str} : ¬ c!"<" <+: n → ¬ c!">" <:+ n → TagOf n ('<' :: n)
  | opened {n : Str} : ¬ c!">" <:+ ('<' :: n) → TagOf ('<' :: n) ('<' :: n)
  | closed {n : Str} : ¬ c!"<" <+: n → TagOf (n ++ c!">") ('<' :: n)
  | both {n : Str} : TagOf ('<' :: n ++ c!">") ('<' :: n)

/-- `x` is the part of `s` before the first occurrence of `p`, and `r` what follows it. -/
def FirstAt (p s x r : Str) : Prop := s = x ++ p ++ r ∧ ∀ x' r', s = x' ++ p ++ r' → x.length ≤ x'.length

/-- `Inserted tag code out out'`: the code was inserted once: before the first closing tag, or after the first `>` from the
first opening tag; if there is none, nothing changes. -/
inductive Inserted (tag code out : Str) : Str → Prop
  | closing {x r : Str} : c!"</" <+: tag → FirstAt tag out x r → Inserted tag code out (x ++ code ++ tag ++ r)
  | opening {x r m b : Str} : ¬ c!"</" <+: tag → FirstAt tag out x r → tag ++ r = m ++ c!">" ++ b → '>' ∉ m →
      Inserted tag code out (x ++ m ++ c!">" ++ code ++ b)
  | unended {x r : Str} : ¬ c!"</" <+: tag → FirstAt tag out x r → '>' ∉ tag ++ r → Inserted tag code out out
  | missing : ¬ tag <:+: out → Inserted tag code out out

/-- The pending codes are inserted one after the other. -/
inductive Moves : List (Str × Str) → Str → Str → Prop
  | nil (out : Str) : Moves [] out out
  | cons {to tag code : Str} {l : List (Str × Str)} {out out1 out2 : Str} : TagOf to tag → Inserted tag code out out1 →
      Moves l out1 out2 → Moves ((to, code) :: l) out out2

/-- Remember that `code` has to be moved to `to`: a code that was already there (up to spaces and newlines) is replaced. -/
def remember (hash : Str → Str) (to code : Str) : List (Str × Str) → List (Str × Str)
  | [] => [(to, code)]
  | (t, c) :: l => if hash (squeeze c) = hash (squeeze code) then (to, code) :: l else (t, c) :: remember hash to code l

/-- The codes to be moved are these. -/
def PendingIs (env : Env) (sh : Shared) (l : List (Str × Str)) : Prop :=
  sh.schema.index c!"__moveto" = .obj (l.map (fun e => (env.md5 (squeeze e.2), .obj [(e.1, .str e.2)]))) ∧
  (l.map (fun e => env.md5 (squeeze e.2))).Nodup

/-- `Evaluated env n w t out sh`: the evaluation of the template, without the final treatment of the output. -/
def Evaluated (env : Env) (n : Nat) (w : World) (t : Tpl) (out : Str) (sh : Shared) : Prop :=
  ∃ sh0 raw sh1 inh o2 sh2 inh2 inh3, Shared.new env w t.schema = some sh0 ∧
    initShared env t.filePath t.raw sh0 = .ok (raw, sh1, inh) ∧ pass env sh1 inh raw [] = .ok o2 sh2 inh2 ∧
    cacheLoop env inh n sh2 o2 = .ok out sh inh3

end Nts.Spec
