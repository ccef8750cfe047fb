import Verif.Spec.Bif
import Verif.Spec.Text
import Verif.Spec.Loop
import Verif.Model.Bifs
/-
A language of templates (text, variables, conditions, comparisons, else, coalesce, code, loops, parameters, translations,
included files, snippets, replacements, allow lists, eval, hashes, joined collections, files of data and of translations, the
language and the marks, nested without limit, with or without
scopes), how they are written, and what they mean.  The
meaning is a function of the data and the definitions; nothing here refers to positions in a source, to scanning, to blocks or
to the state of an evaluation.
-/
set_option autoImplicit false
namespace Nts.Spec

/-- BIFs without parts. -/
inductive Leaf
  /-- `{:lang;:}` -/
  | lang
  /-- `{:;:}` -/
  | mark
  /-- `{:^;:}` -/
  | up
  /-- `{:join; /name/sep/ :}`, or with the keys `{:join; /name/sep/keys/ :}` -/
  | join (keys : Bool) (name sep : Str)
  /-- `{:data; path :}` or `{:locale; path :}`, where `v` is what the file has in it -/
  | load (locale : Bool) (path : Str) (v : Value)

/-- The templates.  `neg` is the modifier `!`, `plus` the modifier `+`. -/
inductive Node
  /-- text -/
  | text (t : Str)
  /-- `{:;name:}`, or with the filter `{:&;name:}` -/
  | var (amp : Bool) (name : Str)
  /-- `{:kind; name >> body :}` -/
  | cond (neg plus : Bool) (kind name : Str) (body : List Node)
  /-- `{:kind; /a/b/ >> body :}` -/
  | cmp (neg plus : Bool) (kind : Str) (a b body : List Node)
  /-- `{:else; body :}` -/
  | els (neg plus : Bool) (body : List Node)
  /-- `{:coalesce; body :}` -/
  | coalesce (plus : Bool) (body : List Node)
  /-- `{:code; body :}` -/
  | code (plus : Bool) (body : List Node)
  /-- `{:each; coll key val >> body :}` -/
  | each (plus : Bool) (coll key val : Str) (body : List Node)
  /-- `{:for; v a..b >> body :}` -/
  | range (plus : Bool) (v : Str) (a b : Int) (body : List Node)
  /-- `{:param; name :}` -/
  | param (name : Str)
  /-- `{:param; name >> body :}` -/
  | setParam (name : Str) (body : List Node)
  /-- `{:trans; body :}` -/
  | trans (neg : Bool) (body : List Node)
  /-- `{:include; path :}`, where `body` is what the file has in it -/
  | incl (path : Str) (body : List Node)
  /-- `{:snippet; name :}` or `{:snip; name :}`, where `body` is what the snippet is -/
  | snippet (kind name : Str) (body : List Node)
  /-- A BIF without parts. -/
  | leaf (k : Leaf)
  /-- `{:replace; /a/b/ >> body :}` -/
  | replace (a b body : List Node)
  /-- `{:allow; name >> body :}` -/
  | allow (neg : Bool) (name : Str) (body : List Node)
  /-- `{:eval; test >> body :}` -/
  | eval (neg plus : Bool) (test body : List Node)
  /-- `{:hash; body :}` -/
  | hash (body : List Node)

/-- The name of a BIF without parts. -/
def Leaf.name : Leaf → Str
  | .lang => c!"lang"
  | .mark => []
  | .up => []
  | .join _ _ _ => c!"join"
  | .load locale _ _ => if locale then c!"locale" else c!"data"

/-- The modifiers of a BIF without parts. -/
def Leaf.mods : Leaf → Str
  | .up => c!"^"
  | _ => []

/-- What is written after the name. -/
def Leaf.source : Leaf → Str
  | .lang => []
  | .mark => []
  | .up => []
  | .join keys name sep => c!" /" ++ name ++ c!"/" ++ sep ++ (if keys then c!"/keys/ " else c!"/ ")
  | .load _ path _ => c!" " ++ path ++ c!" "

/-- The modifiers of a BIF. -/
def marks (neg plus : Bool) : Str := (if neg then c!"!" else []) ++ (if plus then c!"+" else [])

mutual
/-- How a template is written. -/
def Node.print : Node → Str
  | .text t => t
  | .var amp name => bifText (if amp then c!"&" else []) [] name
  | .cond neg plus kind name body => bifText (marks neg plus) kind (c!" " ++ name ++ c!" >> " ++ printAll body ++ c!" ")
  | .cmp neg plus kind a b body =>
    bifText (marks neg plus) kind (c!" /" ++ printAll a ++ c!"/" ++ printAll b ++ c!"/ >> " ++ printAll body ++ c!" ")
  | .els neg plus body => bifText (marks neg plus) c!"else" (c!" " ++ printAll body ++ c!" ")
  | .coalesce plus body => bifText (marks false plus) c!"coalesce" (c!" " ++ printAll body ++ c!" ")
  | .code plus body => bifText (marks false plus) c!"code" (c!" " ++ printAll body ++ c!" ")
  | .each plus coll key val body =>
    bifText (marks false plus) c!"each" (c!" " ++ (coll ++ c!" " ++ key ++ c!" " ++ val) ++ c!" >> " ++ printAll body ++ c!" ")
  | .range plus v a b body =>
    bifText (marks false plus) c!"for" (c!" " ++ (v ++ c!" " ++ showInt a ++ c!".." ++ showInt b) ++ c!" >> " ++ printAll body ++ c!" ")
  | .param name => bifText [] c!"param" (c!" " ++ name ++ c!" ")
  | .setParam name body => bifText [] c!"param" (c!" " ++ name ++ c!" >> " ++ printAll body ++ c!" ")
  | .trans neg body => bifText (marks neg false) c!"trans" (c!" " ++ printAll body ++ c!" ")
  | .incl path _ => bifText [] c!"include" (c!" " ++ path ++ c!" ")
  | .snippet kind name _ => bifText [] kind (c!" " ++ name ++ c!" ")
  | .leaf k => bifText k.mods k.name k.source
  | .replace a b body =>
    bifText [] c!"replace" (c!" /" ++ printAll a ++ c!"/" ++ printAll b ++ c!"/ >> " ++ printAll body ++ c!" ")
  | .allow neg name body => bifText (marks neg false) c!"allow" (c!" " ++ name ++ c!" >> " ++ printAll body ++ c!" ")
  | .eval neg plus test body => bifText (marks neg plus) c!"eval" (c!" " ++ printAll test ++ c!" >> " ++ printAll body ++ c!" ")
  | .hash body => bifText [] c!"hash" (c!" " ++ printAll body ++ c!" ")
/-- One after the other. -/
def printAll : List Node → Str
  | [] => []
  | x :: l => x.print ++ printAll l
end

/-- What does not change in a render: the floating point numbers, the option `filter_all`, whether the delimiters in variables
are replaced, the language, the files, how JSON is read, the hash, the snippets and the declared allow lists. -/
structure Site where
  F : F64Ops
  filterAll : Bool
  sanitize : Bool
  lang : Str
  file : Str → Option Str
  json : Str → Option Value
  md5 : Str → Str
  snippets : Value
  declared : Value

/-- What the meaning of a template depends on, and what it changes: the data; the definitions (local data, parameters,
translations); whether the last BIF gave output (for `else`), and for the `coalesce` it is in; and how many BIFs were
evaluated. -/
structure Mem where
  data : Obj
  defs : Obj
  last : Bool
  lastC : Bool
  bifs : Nat

/-- The text of a value. -/
def shownAs (F : F64Ops) : Option Value → Str
  | some (.str s) => s
  | some (.num n) => showNum F n
  | some (.bool true) => c!"true"
  | some (.bool false) => c!"false"
  | _ => []

/-- The value of an entry (`null` when there is none). -/
def entry (d : Obj) (k : Str) : Value := (Obj.get? k d).getD .null

/-- The value of a variable: of the local data, or of the data. -/
def valueOf (m : Mem) (name : Str) : Option Value :=
  if c!"local::" <+: name then resolvePointer (entry m.defs c!"data") (name.drop 7) else resolvePointer (.obj m.data) name

/-- The printed form of a text: with the filter the special characters are replaced, once (request data are already filtered);
without it only the delimiters are. -/
def printedAs (filter sanitize : Bool) (name v : Str) : Str :=
  if filter then (if c!"CONTEXT->" <+: name then v else escapeChars true (unescapeChars true v))
  else if sanitize then sanitizeBifs v else v

/-- The four tests on the value of a variable. -/
def truth (F : F64Ops) (kind : Str) (v : Option Value) : Bool :=
  if kind = c!"defined" then
    match v with
    | none | some .null => false
    | _ => true
  else if kind = c!"filled" then
    match v with
    | none | some .null | some (.str []) | some (.arr []) | some (.obj []) => false
    | _ => true
  else if kind = c!"array" then
    match v with
    | some (.arr _) | some (.obj _) => true
    | _ => false
  else
    match v with
    | none | some .null => false
    | some (.bool b) => b
    | some (.num (.int i)) => decide (0 < i)
    | some (.num (.flt x)) => F.pos x
    | some (.arr a) => !a.isEmpty
    | some (.obj o) => !o.isEmpty
    | some (.str s) => decide (s ≠ []) && decide (s ≠ c!"false") && (match F.parse s with | some x => F.pos x | none => true)

/-- The two comparisons. -/
def compare (kind a b : Str) : Bool := if kind = c!"same" then decide (a = b) else decide (b <:+: a)

/-- The elements of a collection, with their keys. -/
def elementsOf : Option Value → List (Str × Value)
  | some (.obj o) => o
  | some (.arr a) => a.zipIdx.map (fun p => (showNat p.2, p.1))
  | _ => []

/-- The translation of a text. -/
def translated (S : Site) (m : Mem) (t : Str) : Str :=
  shownAs S.F (resolvePointer (((entry m.defs c!"locale").index c!"trans").index S.lang) t)

/-- The parameters. -/
def paramsOf (m : Mem) : Obj :=
  match entry m.defs c!"params" with
  | .obj o => o
  | _ => []

/-- The text of a block without the outer white space, and the data and the count it leaves; what was remembered of the last
BIF outside is remembered afterwards.  The definitions are as before, unless the block shares them (`plus`). -/
def blockOf (plus : Bool) (run : Mem → Str × Mem) (m : Mem) : Str × Mem :=
  (trim (run m).1, { m with
    data := (run m).2.data
    defs := if plus then (run m).2.defs else m.defs
    bifs := (run m).2.bifs })

/-- An argument: a text stands for itself, other arguments are evaluated as blocks. -/
def argOf (text : Str) (run : Mem → Str × Mem) (m : Mem) : Str × Mem :=
  if c!"{:" <:+: text then blockOf false run m else (text, m)

/-- Variables set. -/
def setAll : List (Str × Value) → Obj → Obj
  | [], d => d
  | (k, v) :: l, d => setAll l (Obj.insert k v d)

/-- Round by round: the variables are set, the body is evaluated. -/
def loopOf (plus : Bool) (run : Mem → Str × Mem) : List (List (Str × Value)) → Mem → Str × Mem
  | [], m => ([], m)
  | vs :: l, m =>
    let r := blockOf plus run { m with data := setAll vs m.data }
    let r' := loopOf plus run l r.2
    (r.1 ++ r'.1, r'.2)

/-- A BIF: inside `coalesce` it is skipped if a BIF before it gave output; otherwise it counts, its output is printed without
the outer white space, and whether there was any is remembered.  `al` is the name of the BIF it is in. -/
def bifOf (al : Str) (run : Mem → Str × Mem) (m : Mem) : Str × Mem :=
  if al = c!"coalesce" ∧ m.lastC = true then ([], m)
  else
    let r := run { m with bifs := m.bifs + 1 }
    (trim r.1, { r.2 with last := !r.1.isEmpty, lastC := !r.1.isEmpty })

/-- The text of a value in an object that is joined. -/
def itemAs (F : F64Ops) : Value → Str
  | .null => c!"null"
  | v => shownAs F (some v)

/-- The elements of a collection one after the other, separated; or its keys.  (In an array, only the texts are shown.) -/
def joinedAs (F : F64Ops) (keys : Bool) (sep : Str) : Option Value → Str
  | some (.obj o) => separated sep (o.map (fun kv => if keys then kv.1 else itemAs F kv.2))
  | some (.arr a) => separated sep (a.zipIdx.map (fun p => if keys then showNat p.2 else match p.1 with | .str s => s | _ => []))
  | _ => []

/-- What a BIF without parts prints: the language; a mark that keeps the white space around it and is taken out in the
end (C47); a mark that is taken out in the end with the white space before it (C69), and the other one; the elements of a collection; the mark when a file has been read. -/
def Leaf.shown (S : Site) : Leaf → Mem → Str
  | .lang, _ => S.lang
  | .mark, _ => c!"&#0;"
  | .up, _ => c!"&#9224&#0;"
  | .join keys name sep, m => joinedAs S.F keys sep (valueOf m name)
  | .load _ _ _, _ => c!"&#0;"

/-- What a file of data or of translations adds to the definitions: its entry `data`, or all of it. -/
def Leaf.part (locale : Bool) (v : Value) : Value := if locale then v else (v.get? c!"data").getD .null

/-- The definitions with a file of data or of translations merged into them. -/
def loaded (locale : Bool) (v : Value) (defs : Obj) : Obj :=
  if locale then Obj.insert c!"locale" (mergeSchema (entry defs c!"locale") (Leaf.part locale v)) defs
  else Obj.insert c!"data" (mergeSchema (entry defs c!"data") (Leaf.part locale v)) defs

/-- What a BIF without parts changes: files are merged into the definitions. -/
def Leaf.effect : Leaf → Mem → Mem
  | .load locale _ v, m => { m with defs := loaded locale v m.defs }
  | _, m => m

/-- The words declared under a name. -/
def wordsOf (S : Site) (name : Str) : List Str := splitWhitespace (shownAs S.F (resolvePointer S.declared name))

mutual
/-- The meaning of a template inside the BIF `al`: its output, and what it changes. -/
def Node.means (S : Site) (al : Str) : Node → Mem → Str × Mem
  | .text t, m => (t, m)
  | .var amp name, m => bifOf al (fun m =>
      (printedAs (amp || S.filterAll) S.sanitize name (shownAs S.F (valueOf m name)), m)) m
  | .cond neg plus kind name body, m => bifOf al (fun m =>
      if truth S.F kind (valueOf m name) = neg then ([], m) else blockOf plus (meansAll S kind body) m) m
  | .cmp neg plus kind a b body, m => bifOf al (fun m =>
      let ra := argOf (printAll a) (meansAll S kind a) m
      let rb := argOf (printAll b) (meansAll S kind b) ra.2
      if compare kind ra.1 rb.1 = neg then ([], rb.2) else blockOf plus (meansAll S kind body) rb.2) m
  | .els neg plus body, m => bifOf al (fun m =>
      if m.last = neg then blockOf plus (meansAll S c!"else" body) m else ([], m)) m
  | .coalesce plus body, m => bifOf al (fun m => blockOf plus (meansAll S c!"coalesce" body) { m with lastC := false }) m
  | .code plus body, m => bifOf al (blockOf plus (meansAll S c!"code" body)) m
  | .each plus coll key val body, m => bifOf al (fun m =>
      let r := loopOf plus (meansAll S c!"each" body)
        ((elementsOf (valueOf m coll)).map (fun kv => [(key, .str kv.1), (val, kv.2)])) m
      (r.1, { r.2 with data := Obj.insert val (entry m.data val) (Obj.insert key (entry m.data key) r.2.data) })) m
  | .range plus v a b body, m => bifOf al (fun m =>
      let r := loopOf plus (meansAll S c!"for" body) ((span a b).map (fun i => [(v, .str (showInt i))])) m
      (r.1, { r.2 with data := Obj.insert v (.str (shownAs S.F (valueOf m v))) r.2.data })) m
  | .param name, m => bifOf al (fun m => (shownAs S.F (resolvePointer (entry m.defs c!"params") name), m)) m
  | .setParam name body, m => bifOf al (fun m =>
      let r := blockOf false (meansAll S c!"param" body) m
      ([], { r.2 with defs := Obj.insert c!"params" (.obj (Obj.insert name (.str r.1) (paramsOf r.2))) r.2.defs })) m
  | .trans neg body, m => bifOf al (fun m =>
      let r := blockOf false (meansAll S c!"trans" body) m
      (if translated S m r.1 = [] then (if neg then [] else r.1) else translated S m r.1, r.2)) m
  | .incl _ body, m => bifOf al (blockOf true (meansAll S c!"include" body)) m
  | .snippet _ _ body, m => bifOf al (blockOf (decide (c!"{:snip" <:+: trim (printAll body))) (meansAll S c!"snippet" body)) m
  | .leaf k, m => bifOf al (fun m => (k.shown S m, k.effect m)) m
  | .replace a b body, m => bifOf al (fun m =>
      let ra := argOf (printAll a) (meansAll S c!"replace" a) m
      let rb := argOf (printAll b) (meansAll S c!"replace" b) ra.2
      let rc := blockOf false (meansAll S c!"replace" body) rb.2
      (replaceAll ra.1 rb.1 rc.1, rc.2)) m
  | .allow neg name body, m => bifOf al (fun m =>
      let r := blockOf false (meansAll S c!"allow" body) m
      (if (wordsOf S name).any (wildcardMatch r.1) = neg then [] else r.1, r.2)) m
  | .eval neg plus test body, m => bifOf al (fun m =>
      let rt := blockOf plus (meansAll S c!"eval" test) m
      if rt.1.isEmpty = neg then
        (if c!"{:" <:+: printAll body then
          let r := blockOf plus (meansAll S c!"eval" body) { rt.2 with data := Obj.insert c!"__eval__" (.str rt.1) rt.2.data }
          (r.1, { r.2 with data := Obj.insert c!"__eval__" (.str (shownAs S.F (valueOf rt.2 c!"__eval__"))) r.2.data })
        else (trim (printAll body), rt.2))
      else ([], rt.2)) m
  | .hash body, m => bifOf al (fun m =>
      let r := blockOf false (meansAll S c!"hash" body) m
      (S.md5 r.1, r.2)) m
/-- One after the other. -/
def meansAll (S : Site) (al : Str) : List Node → Mem → Str × Mem
  | [], m => ([], m)
  | x :: l, m =>
    let r := x.means S al m
    let r' := meansAll S al l r.2
    (r.1 ++ r'.1, r'.2)
end

/-- A text that can be a part of a template: no delimiter and no `>>` in it, nor formed where it touches what is around it. -/
structure TextOk (t : Str) : Prop where
  noOpen : ¬ c!"{:" <:+: t
  noClose : ¬ c!":}" <:+: t
  noSep : ¬ c!">>" <:+: t
  first : t.head? ≠ some ':' ∧ t.head? ≠ some '}' ∧ t.head? ≠ some '>'
  last : t.getLast? ≠ some '{'

/-- A name. -/
structure NameOk (t : Str) : Prop where
  some : t ≠ []
  chars : ∀ c ∈ t, c ≠ '{' ∧ c ≠ '}' ∧ isWs c = false
  noSep : ¬ c!">>" <:+: t

/-- A name of a variable that can be set. -/
def SetOk (t : Str) : Prop := NameOk t ∧ ¬ c!"local::" <+: t

/-- The names and files of a BIF without parts are as required. -/
def Leaf.Ok (S : Site) : Leaf → Prop
  | .lang => True
  | .mark => True
  | .up => True
  | .join _ name sep => NameOk name ∧ ('/' ∉ name ∧ '~' ∉ name ∧ ¬ c!"->" <:+: name ∧ ¬ c!"local::" <:+: name) ∧
      '/' ∉ sep ∧ '{' ∉ sep ∧ '}' ∉ sep
  | .load locale path v => NameOk path ∧ path.head? ≠ some '#' ∧
      ∃ t, S.file path = some t ∧ S.json t = some v ∧ (locale = true → ¬ c!"{:" <:+: t)

mutual
/-- The texts, names, files and snippets of a template inside the BIF `al` are as required. -/
def Node.Ok (S : Site) (al : Str) : Node → Prop
  | .text t => TextOk t
  | .var _ name => NameOk name
  | .cond _ _ kind name body => kind ∈ [c!"array", c!"bool", c!"defined", c!"filled"] ∧ NameOk name ∧ AllOk S kind body
  | .cmp _ _ kind a b body => kind ∈ [c!"contains", c!"same"] ∧ AllOk S kind a ∧ AllOk S kind b ∧ AllOk S kind body ∧
      '/' ∉ printAll a ∧ '/' ∉ printAll b
  | .els _ _ body => AllOk S c!"else" body
  | .coalesce _ body => AllOk S c!"coalesce" body
  | .code _ body => AllOk S c!"code" body
  | .each _ coll key val body => NameOk coll ∧ SetOk key ∧ SetOk val ∧ AllOk S c!"each" body
  | .range _ v a b body => SetOk v ∧ '.' ∉ v ∧ (-(2 ^ 31) ≤ a ∧ a < 2 ^ 31) ∧ (-(2 ^ 31) ≤ b ∧ b < 2 ^ 31) ∧ AllOk S c!"for" body
  | .param name => NameOk name
  | .setParam name body => al = c!"code" ∧ NameOk name ∧ AllOk S c!"param" body
  | .trans _ body => AllOk S c!"trans" body
  | .incl path body => NameOk path ∧ path.head? ≠ some '#' ∧ S.file path = some (printAll body) ∧ AllOk S c!"include" body
  | .snippet kind name body => kind ∈ [c!"snippet", c!"snip"] ∧ NameOk name ∧
      shownAs S.F (resolvePointer S.snippets name) = trim (printAll body) ∧ AllOk S c!"snippet" body
  | .leaf k => k.Ok S
  | .replace a b body => AllOk S c!"replace" a ∧ AllOk S c!"replace" b ∧ AllOk S c!"replace" body ∧
      '/' ∉ printAll a ∧ '/' ∉ printAll b
  | .allow _ name body => NameOk name ∧ wordsOf S name ≠ [] ∧ AllOk S c!"allow" body
  | .eval _ _ test body => AllOk S c!"eval" test ∧ trim (printAll test) ≠ [] ∧ AllOk S c!"eval" body
  | .hash body => AllOk S c!"hash" body ∧ ∃ t l, body = .text t :: l ∧ ∃ c ∈ t, isWs c = false
/-- All of them. -/
def AllOk (S : Site) (al : Str) : List Node → Prop
  | [] => True
  | x :: l => x.Ok S al ∧ AllOk S al l
end

end Nts.Spec
