import Verif.Spec.LangUse
/-
Laws of the language of templates (Spec/Lang.lean): parts that can be exchanged, anywhere in a template.
-/
set_option autoImplicit false
namespace Nts.Spec

/-- The four tests. -/
def IsTest (kind : Str) : Prop := kind ∈ [c!"array", c!"bool", c!"defined", c!"filled"]

/-- A value that passes the first test passes the second. -/
def Implies (k1 k2 : Str) : Prop :=
  k2 = c!"defined" ∨ (k1 = c!"bool" ∧ k2 = c!"filled") ∨ k1 = k2

/-- There is something to see in a text. -/
def Visible (t : Str) : Prop := ∃ c ∈ t, isWs c = false

/-- The template `a` can be exchanged with `b` inside the BIF `al`.  `whole` says that they are all there is in a block, so that
the white space around them does not matter, nor what they tell a following `else` or `coalesce`. -/
inductive Swap : (whole : Bool) → (al : Str) → List Node → List Node → Prop
  /- the laws -/
  /-- Texts can be cut. -/
  | texts (al a b : Str) : Swap false al [.text a, .text b] [.text (a ++ b)]
  | noText (al : Str) : Swap false al [.text []] []
  /-- A block is a block. -/
  | codeCode (al : Str) (p q : Bool) (body : List Node) : Swap false al [.code p [.code q body]] [.code (p && q) body]
  /-- All of the body of a BIF can be put in a block that shares its definitions. -/
  | wrap (al : Str) (body : List Node) (h : al ≠ c!"coalesce") : Swap true al [.code true body] body
  /-- A test need not be repeated, nor be followed by one it implies. -/
  | implied (al : Str) (p q : Bool) (k1 k2 name : Str) (body : List Node) (h1 : IsTest k1) (h : Implies k1 k2) :
      Swap false al [.cond false p k1 name [.cond false q k2 name body]] [.cond false (p && q) k1 name body]
  | twice (al : Str) (p q : Bool) (kind name : Str) (body : List Node) (hk : IsTest kind) :
      Swap false al [.cond true p kind name [.cond true q kind name body]] [.cond true (p && q) kind name body]
  /-- A test and its opposite show nothing. -/
  | opposite (al : Str) (neg p q : Bool) (kind name : Str) (body : List Node) (hk : IsTest kind) :
      Swap false al [.cond neg p kind name [.cond (!neg) q kind name body]] [.cond neg p kind name []]
  /-- `else` after a test with something to see is the opposite test. -/
  | opposed (al : Str) (neg p q : Bool) (kind name t : Str) (body : List Node) (h : Visible t) (ha : al ≠ c!"coalesce")
      (hk : IsTest kind) :
      Swap false al [.cond neg p kind name [.text t], .els false q body] [.cond neg p kind name [.text t], .cond (!neg) q kind name body]
  /-- The two branches can be exchanged, at the end of a block. -/
  | branches (al : Str) (before : List Node) (neg p q : Bool) (kind name a b : Str) (ha : Visible a) (hb : Visible b) (hal : al ≠ c!"coalesce") :
      Swap true al (before ++ [.cond neg p kind name [.text a], .els false q [.text b]])
        (before ++ [.cond (!neg) q kind name [.text b], .els false p [.text a]])
  | elseElse (al : Str) (neg p q : Bool) (body : List Node) :
      Swap false al [.els neg p [.els neg q body]] [.els neg (p && q) body]
  /-- A comparison of a text with itself. -/
  | sameText (al t : Str) (p : Bool) (body : List Node) (h : ¬ c!"{:" <:+: t) :
      Swap false al [.cmp false p c!"same" [.text t] [.text t] body] [.code p body]
  /-- `coalesce` of one variable, or of a `coalesce`. -/
  | coalesceOne (al : Str) (p amp : Bool) (name : Str) : Swap false al [.coalesce p [.var amp name]] [.code p [.var amp name]]
  | coalesceTwice (al : Str) (p q : Bool) (body : List Node) :
      Swap false al [.coalesce p [.coalesce q body]] [.coalesce (p && q) body]
  /-- A file, written where it is included; a snippet, where it is used. -/
  | file (al path : Str) (body : List Node) : Swap false al [.incl path body] [.code true body]
  | snippet (al kind name : Str) (body : List Node) :
      Swap false al [.snippet kind name body] [.code (decide (c!"{:snip" <:+: trim (printAll body))) body]
  /- anywhere -/
  | refl (al : Str) (l : List Node) : Swap false al l l
  | symm {w : Bool} {al : Str} {a b : List Node} : Swap w al a b → Swap w al b a
  | trans {w : Bool} {al : Str} {a b c : List Node} : Swap w al a b → Swap w al b c → Swap w al a c
  | whole {al : Str} {a b : List Node} : Swap false al a b → Swap true al a b
  | append {al : Str} {a b c d : List Node} : Swap false al a b → Swap false al c d → Swap false al (a ++ c) (b ++ d)
  | cond {al : Str} {a b : List Node} (neg plus : Bool) (kind name : Str) :
      Swap true kind a b → Swap false al [.cond neg plus kind name a] [.cond neg plus kind name b]
  | cmp {al : Str} {a b : List Node} (neg plus : Bool) (kind : Str) (x y : List Node) :
      Swap true kind a b → Swap false al [.cmp neg plus kind x y a] [.cmp neg plus kind x y b]
  | cmp1 {al : Str} {a b : List Node} (neg plus : Bool) (kind : Str) (y body : List Node)
      (ha : c!"{:" <:+: printAll a) (hb : c!"{:" <:+: printAll b) :
      Swap true kind a b → Swap false al [.cmp neg plus kind a y body] [.cmp neg plus kind b y body]
  | cmp2 {al : Str} {a b : List Node} (neg plus : Bool) (kind : Str) (x body : List Node)
      (ha : c!"{:" <:+: printAll a) (hb : c!"{:" <:+: printAll b) :
      Swap true kind a b → Swap false al [.cmp neg plus kind x a body] [.cmp neg plus kind x b body]
  | els {al : Str} {a b : List Node} (neg plus : Bool) :
      Swap true c!"else" a b → Swap false al [.els neg plus a] [.els neg plus b]
  | coalesce {al : Str} {a b : List Node} (plus : Bool) :
      Swap true c!"coalesce" a b → Swap false al [.coalesce plus a] [.coalesce plus b]
  | code {al : Str} {a b : List Node} (plus : Bool) : Swap true c!"code" a b → Swap false al [.code plus a] [.code plus b]
  | each {al : Str} {a b : List Node} (plus : Bool) (coll key val : Str) :
      Swap true c!"each" a b → Swap false al [.each plus coll key val a] [.each plus coll key val b]
  | range {al : Str} {a b : List Node} (plus : Bool) (v : Str) (i j : Int) :
      Swap true c!"for" a b → Swap false al [.range plus v i j a] [.range plus v i j b]
  | setParam {al : Str} {a b : List Node} (name : Str) :
      Swap true c!"param" a b → Swap false al [.setParam name a] [.setParam name b]
  | trans_ {al : Str} {a b : List Node} (neg : Bool) : Swap true c!"trans" a b → Swap false al [.trans neg a] [.trans neg b]
  | replace {al : Str} {a b : List Node} (x y : List Node) :
      Swap true c!"replace" a b → Swap false al [.replace x y a] [.replace x y b]
  | allow {al : Str} {a b : List Node} (neg : Bool) (name : Str) :
      Swap true c!"allow" a b → Swap false al [.allow neg name a] [.allow neg name b]
  | test {al : Str} {a b : List Node} (neg plus : Bool) (body : List Node) :
      Swap true c!"eval" a b → Swap false al [.eval neg plus a body] [.eval neg plus b body]
  | eval {al : Str} {a b : List Node} (neg plus : Bool) (test : List Node)
      (ha : c!"{:" <:+: printAll a) (hb : c!"{:" <:+: printAll b) :
      Swap true c!"eval" a b → Swap false al [.eval neg plus test a] [.eval neg plus test b]
  | hash {al : Str} {a b : List Node} : Swap true c!"hash" a b → Swap false al [.hash a] [.hash b]

end Nts.Spec
