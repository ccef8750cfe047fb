import Verif.Spec.LangUse
/-
How HTML is read (the states of the tokenizer of the HTML standard, section 13.2.5), the markup of a text, and the markups a
template of the language can have.  Nothing here refers to the evaluation of templates or to data.

The states follow the standard for tags, attributes, comments, doctypes and the elements whose content is text; whatever is
left out (the content of `script` after `<!--`, `plaintext`, `noscript`, foreign elements `svg` and `math`, CDATA sections) leads
to the state `lost`, which is never left and in which no text of a template and no data may stand.
-/
set_option autoImplicit false
namespace Nts.Spec

/-- The letters, the white space of HTML, and small letters. -/
def letter (c : Char) : Bool := decide (('a' ≤ c ∧ c ≤ 'z') ∨ ('A' ≤ c ∧ c ≤ 'Z'))
def space (c : Char) : Bool := decide (c ∈ [' ', '\n', '\t', '\r', Char.ofNat 12])
def small (c : Char) : Char := if 'A' ≤ c ∧ c ≤ 'Z' then Char.ofNat (c.toNat + 32) else c

/-- A tag: whether it is an end tag, and its name. -/
abbrev Tag := Bool × Str

/-- Where a reader of HTML is. -/
inductive Place
  /-- in text -/
  | data
  /-- after `<` -/
  | tagOpen
  /-- after `</` -/
  | endOpen
  /-- in the name of a tag -/
  | tagName (g : Tag)
  /-- in a tag, before the name of an attribute -/
  | beforeName (g : Tag)
  /-- in the name of an attribute -/
  | attrName (g : Tag)
  /-- after the name of an attribute -/
  | afterName (g : Tag)
  /-- after `=` -/
  | beforeValue (g : Tag)
  /-- in a value in `"` -/
  | double (g : Tag)
  /-- in a value in `'` -/
  | single (g : Tag)
  /-- in a value without quotes -/
  | unquoted (g : Tag)
  /-- after a value in quotes -/
  | afterQuoted (g : Tag)
  /-- after `/` in a tag -/
  | slash (g : Tag)
  /-- after `<!`, and after `<!-` -/
  | bang | bangDash
  /-- in a doctype, or in what is read as a comment up to `>` -/
  | bogus
  /-- in a comment: after `<!--`, after `<!---`, in the text, after `-`, after `--`, after `--!` -/
  | comStart | comStartDash | com | comDash | comEnd | comBang
  /-- in the text of an element like `title`, after `<` in it, and in the name after `</` in it -/
  | raw (n : Str) | rawLt (n : Str) | rawEnd (n acc : Str)
  /-- not modelled -/
  | lost
  deriving DecidableEq

/-- After a tag: start tags of some elements change how what follows is read. -/
def afterTag (g : Tag) : Place :=
  if g.1 = true then .data
  else if g.2 ∈ [c!"title", c!"textarea", c!"script", c!"style", c!"xmp", c!"iframe", c!"noembed", c!"noframes"] then .raw g.2
  else if g.2 ∈ [c!"plaintext", c!"noscript", c!"svg", c!"math"] then .lost
  else .data

/-- Before the name of an attribute. -/
def stepName (g : Tag) (c : Char) : Place :=
  if space c then .beforeName g else if c = '/' then .slash g else if c = '>' then afterTag g else .attrName g

/-- In the text of an element like `title`. -/
def stepRaw (n : Str) (c : Char) : Place := if c = '<' then .rawLt n else .raw n

/-- Reading one character. -/
def Place.step : Place → Char → Place
  | .data, c => if c = '<' then .tagOpen else .data
  | .tagOpen, c => if c = '!' then .bang else if c = '/' then .endOpen else if letter c then .tagName (false, [small c])
      else if c = '?' then .bogus else if c = '<' then .tagOpen else .data
  | .endOpen, c => if letter c then .tagName (true, [small c]) else if c = '>' then .data else .bogus
  | .tagName g, c => if space c then .beforeName g else if c = '/' then .slash g else if c = '>' then afterTag g
      else .tagName (g.1, g.2 ++ [small c])
  | .beforeName g, c => stepName g c
  | .attrName g, c => if space c then .afterName g else if c = '/' then .slash g else if c = '>' then afterTag g
      else if c = '=' then .beforeValue g else .attrName g
  | .afterName g, c => if space c then .afterName g else if c = '/' then .slash g else if c = '=' then .beforeValue g
      else if c = '>' then afterTag g else .attrName g
  | .beforeValue g, c => if space c then .beforeValue g else if c = '"' then .double g else if c = '\'' then .single g
      else if c = '>' then afterTag g else .unquoted g
  | .double g, c => if c = '"' then .afterQuoted g else .double g
  | .single g, c => if c = '\'' then .afterQuoted g else .single g
  | .unquoted g, c => if space c then .beforeName g else if c = '>' then afterTag g else .unquoted g
  | .afterQuoted g, c => stepName g c
  | .slash g, c => if c = '>' then afterTag g else stepName g c
  | .bang, c => if c = '-' then .bangDash else if c = '[' then .lost else if c = '>' then .data else .bogus
  | .bangDash, c => if c = '-' then .comStart else if c = '>' then .data else .bogus
  | .bogus, c => if c = '>' then .data else .bogus
  | .comStart, c => if c = '-' then .comStartDash else if c = '>' then .data else .com
  | .comStartDash, c => if c = '-' then .comEnd else if c = '>' then .data else .com
  | .com, c => if c = '-' then .comDash else .com
  | .comDash, c => if c = '-' then .comEnd else .com
  | .comEnd, c => if c = '>' then .data else if c = '!' then .comBang else if c = '-' then .comEnd else .com
  | .comBang, c => if c = '-' then .comDash else if c = '>' then .data else .com
  | .raw n, c => stepRaw n c
  | .rawLt n, c => if c = '/' then .rawEnd n [] else if c = '!' ∧ n = c!"script" then .lost else stepRaw n c
  | .rawEnd n acc, c =>
      if letter c then .rawEnd n (acc ++ [small c])
      else if acc = n ∧ space c = true then .beforeName (true, n)
      else if acc = n ∧ c = '/' then .slash (true, n)
      else if acc = n ∧ c = '>' then .data
      else stepRaw n c
  | .lost, _ => .lost

/-- Reading a text. -/
def Place.read (s : Place) (x : Str) : Place := x.foldl Place.step s

/-- The places for data: text, the values of attributes in quotes, and the text of `title` and `textarea`. -/
def Place.safe : Place → Bool
  | .data => true
  | .double _ => true
  | .single _ => true
  | .raw n => decide (n ∈ [c!"title", c!"textarea"])
  | _ => false

/-- The markup of a text that is read from a place: the text without the characters that are read at a place for data and do
not leave it.  It has all tags, names of attributes, quotes, comments and scripts. -/
def markup : Place → Str → Str
  | _, [] => []
  | s, c :: x => if s.safe = true ∧ s.step c = s then markup s x else c :: markup (s.step c) x

/-- The names of the tags that are read. -/
def tags : Place → Str → List Tag
  | _, [] => []
  | s, c :: x =>
    (match s with
      | .tagName g => if space c = true ∨ c = '/' ∨ c = '>' then [g] else []
      | .rawEnd n acc => if acc = n ∧ (space c = true ∨ c = '/' ∨ c = '>') then [(true, n)] else []
      | _ => []) ++ tags (s.step c) x

/-- An `&` stands only at places for data, and no white space leads to one from another place (as in `< `). -/
def calm : Place → Str → Bool
  | _, [] => true
  | s, c :: x => (c != '&' || s.safe) && (!isWs c || !(s.step c).safe || s.safe) && calm (s.step c) x

/-- A text that cannot leave a place for data. -/
def inert (t : Str) : Bool := !t.contains '<' && !t.contains '"' && !t.contains '\''

/-- Only if. -/
def stays (b : Bool) (s : Place) : Option Place := if b then some s else none

mutual
/-- Where a template that is read from `s` ends, whatever is printed: its texts lead from places for data to places for data;
BIFs stand at places for data, and what can be left out or repeated ends where it starts. -/
def Node.ends : Node → Place → Option Place
  | .text t, s => if calm s t = true ∧ (s.read t).safe = true then some (s.read t) else none
  | .var _ _, s => some s
  | .cond _ _ _ _ body, s => stays (endsAll body s == some s) s
  | .cmp _ _ _ _ _ body, s => stays (endsAll body s == some s) s
  | .els _ _ body, s => stays (endsAll body s == some s) s
  | .coalesce _ body, s => stays (endsAll body s == some s) s
  | .code _ body, s => stays (endsAll body s == some s) s
  | .each _ _ _ _ body, s => stays (endsAll body s == some s) s
  | .range _ _ _ _ body, s => stays (endsAll body s == some s) s
  | .param _, s => some s
  | .setParam _ body, s => stays ((textsAll body).all inert) s
  | .trans _ body, s => stays (endsAll body s == some s) s
  | .incl _ body, s => stays (endsAll body s == some s) s
  | .snippet _ _ body, s => stays (endsAll body s == some s) s
  | .leaf _, s => some s
  | .replace _ _ _, _ => none
  | .allow _ _ body, s => stays (endsAll body s == some s) s
  | .eval _ plus test body, s => stays ((!plus || (textsAll test).all inert) && (endsAll body s == some s)) s
  | .hash _, s => some s
/-- Of all, one after the other. -/
def endsAll : List Node → Place → Option Place
  | [], s => some s
  | x :: l, s => (x.ends s).bind (endsAll l)
end

mutual
/-- The markups a template can have: that of its texts, with what is conditional or not, and with loops repeated.  `opt`: in a
`coalesce`, where BIFs are skipped. -/
def Node.Shape (opt : Bool) : Node → Place → Str → Prop
  | .text t, s, k => k = markup s t
  | .var _ _, _, k => k = []
  | .cond _ _ _ _ body, s, k => k = [] ∨ ShapeAll false body s k
  | .cmp _ _ _ _ _ body, s, k => k = [] ∨ ShapeAll false body s k
  | .els _ _ body, s, k => k = [] ∨ ShapeAll false body s k
  | .coalesce _ body, s, k => (opt = true ∧ k = []) ∨ ShapeAll true body s k
  | .code _ body, s, k => (opt = true ∧ k = []) ∨ ShapeAll false body s k
  | .each _ _ _ _ body, s, k => ∃ ks : List Str, k = ks.flatten ∧ ∀ j ∈ ks, ShapeAll false body s j
  | .range _ _ a b body, s, k => (opt = true ∧ k = []) ∨
      ∃ ks : List Str, k = ks.flatten ∧ ks.length = (span a b).length ∧ ∀ j ∈ ks, ShapeAll false body s j
  | .param _, _, k => k = []
  | .setParam _ _, _, k => k = []
  | .trans _ body, s, k => k = [] ∨ ShapeAll false body s k
  | .incl _ body, s, k => (opt = true ∧ k = []) ∨ ShapeAll false body s k
  | .snippet _ _ body, s, k => (opt = true ∧ k = []) ∨ ShapeAll false body s k
  | .leaf _, _, k => k = []
  | .replace _ _ _, _, _ => False
  | .allow _ _ body, s, k => k = [] ∨ ShapeAll false body s k
  | .eval _ _ _ body, s, k => k = [] ∨ ShapeAll false body s k
  | .hash _, _, k => k = []
/-- Of all: one after the other, each read where the one before ends. -/
def ShapeAll (opt : Bool) : List Node → Place → Str → Prop
  | [], _, k => k = []
  | x :: l, s, k => ∃ k1 k2, k = k1 ++ k2 ∧ Node.Shape opt x s k1 ∧ ∀ s', x.ends s = some s' → ShapeAll opt l s' k2
end

mutual
/-- There is nothing conditional and nothing repeated in a template. -/
def Node.plain : Node → Bool
  | .text _ | .var _ _ | .param _ | .setParam _ _ | .leaf _ | .hash _ => true
  | .code _ body | .incl _ body | .snippet _ _ body => plainAll body
  | _ => false
/-- In all. -/
def plainAll : List Node → Bool
  | [] => true
  | x :: l => x.plain && plainAll l
end

mutual
/-- The markup of such a template. -/
def Node.form : Node → Place → Str
  | .text t, s => markup s t
  | .code _ body, s | .incl _ body, s | .snippet _ _ body, s => formAll body s
  | _, _ => []
/-- Of all. -/
def formAll : List Node → Place → Str
  | [], _ => []
  | x :: l, s => x.form s ++ formAll l ((x.ends s).getD .lost)
end

end Nts.Spec
