import Verif.Model.Value
/-
/repo/src/utils.rs, complete.
-/
set_option autoImplicit false
namespace Nts

/-- `CARGO_PKG_VERSION`, /repo/Cargo.toml and src/constants.rs:6. -/
def VERSION : Str := c!"1.4.3"

/-! ### merge_schema, src/utils.rs:38-71 -/

mutual
/-- `merge_schema` (src/utils.rs:38-51): objects are merged key by key, anything else is overwritten.
`&mut a` is modelled by returning the new value. -/
def mergeSchema (a : Value) : Value → Value
  | .obj b => match a with
    | .obj ao => .obj (mergeObj ao b)
    | _ => .obj b
  | b => b
/-- The `for (k, v) in b_map` loop (src/utils.rs:41-47). -/
def mergeObj (a : Obj) : List (Str × Value) → Obj
  | [] => a
  | (k, v) :: r =>
    match Obj.get? k a with
    | some va => mergeObj (Obj.insert k (mergeSchema va v) a) r
    | none => mergeObj (a ++ [(k, v)]) r
end

/-- `a_map.entry(k)`: apply `f` to the value of an occupied entry, or append `v` at a vacant one. -/
def entryMerge (k : Str) (v : Value) (f : Value → Value) : Obj → Obj
  | [] => [(k, v)]
  | (k', x) :: r => if k' = k then (k', f x) :: r else (k', x) :: entryMerge k v f r

mutual
/-- `merge_schema_owned` (src/utils.rs:55-71), through the `entry` API. -/
def mergeSchemaOwned (a : Value) : Value → Value
  | .obj bo => match a with
    | .obj ao => .obj (mergeObjOwned ao bo)
    | _ => .obj bo
  | b => b
/-- The `for (k, v) in b_map` loop of the owned version (src/utils.rs:58-67): `Occupied` merges in place,
`Vacant` appends. -/
def mergeObjOwned (a : Obj) : List (Str × Value) → Obj
  | [] => a
  | (k, v) :: r => mergeObjOwned (entryMerge k v (fun x => mergeSchemaOwned x v) a) r
end

/-! ### update_schema, src/utils.rs:88-147 -/

/-- The header block of `update_schema` (src/utils.rs:98-107) on the HEADERS object. -/
def syncHeaders (h : Obj) : Obj :=
  match Obj.get? c!"requested-with-ajax" h with
  | some v => Obj.insert c!"REQUESTED-WITH-AJAX" v (Obj.insert c!"Requested-With-Ajax" v h)
  | none =>
    match Obj.get? c!"Requested-With-Ajax" h with
    | some v => Obj.insert c!"REQUESTED-WITH-AJAX" v (Obj.insert c!"requested-with-ajax" v h)
    | none =>
      match Obj.get? c!"REQUESTED-WITH-AJAX" h with
      | some v => Obj.insert c!"Requested-With-Ajax" v (Obj.insert c!"requested-with-ajax" v h)
      | none => h

/-- `a.get_mut(k).and_then(...)`: apply `f` to the value of an existing key of an object. -/
def Value.modExisting (v : Value) (k : Str) (f : Value → Value) : Value :=
  match v with
  | .obj o => match Obj.get? k o with
    | some x => .obj (Obj.insert k (f x) o)
    | none => .obj o
  | v => v

/-- `if let Some(headers) = a.get_mut("data")...as_object_mut()` (src/utils.rs:92-108). -/
def syncSchemaHeaders (a : Value) : Value :=
  a.modExisting c!"data" (fun d => d.modExisting c!"CONTEXT" (fun c => c.modExisting c!"HEADERS" (fun h =>
    match h with
    | .obj ho => .obj (syncHeaders ho)
    | h => h)))

/-- `a["version"] = VERSION` (src/utils.rs:111-115); `none` is the panic of `IndexMut` on a scalar/array. -/
def stampVersion (a : Value) : Option Value := a.setIndex c!"version" (.str VERSION)

/-- `update_schema` (src/utils.rs:88-116). -/
def updateSchema (a b : Value) : Option Value := stampVersion (syncSchemaHeaders (mergeSchema a b))

/-- `update_schema_owned` (src/utils.rs:119-147). -/
def updateSchemaOwned (a b : Value) : Option Value := stampVersion (syncSchemaHeaders (mergeSchemaOwned a b))

/-! ### extract_blocks, src/utils.rs:172-253 -/

/-- Inner loop for a BIF (src/utils.rs:211-236).  `prev` is the character before the current one, `pos` the
position of the current one; the result is the position after the matching `:}`. -/
def scanBif (prev : Char) (nested pos : Nat) : Str → Option Nat
  | [] => none
  | [_] => none
  | c :: d :: r =>
    if c = ':' then
      if prev = '{' then scanBif c (nested + 1) (pos + 1) (d :: r)
      else if d = '}' then
        if 0 < nested then scanBif c (nested - 1) (pos + 1) (d :: r) else some (pos + 2)
      else scanBif c nested (pos + 1) (d :: r)
    else scanBif c nested (pos + 1) (d :: r)

/-- Inner loop for a comment (src/utils.rs:184-209). -/
def scanComment (prev : Char) (nested pos : Nat) : Str → Option Nat
  | [] => none
  | [_] => none
  | c :: d :: r =>
    if c = ':' then
      if prev = '{' ∧ d = '*' then scanComment c (nested + 1) (pos + 1) (d :: r)
      else if prev = '*' ∧ d = '}' then
        if 0 < nested then scanComment c (nested - 1) (pos + 1) (d :: r) else some (pos + 2)
      else scanComment c nested (pos + 1) (d :: r)
    else scanComment c nested (pos + 1) (d :: r)

/-- End of the block whose body (the text after `{:`) is `body`, `pos` being the position of the body
(src/utils.rs:183-237). -/
def scanBlock (pos : Nat) (body : Str) : Option Nat :=
  match body with
  | '*' :: _ => scanComment ':' 0 pos body
  | _ => scanBif ':' 0 pos body

/-- Outer loop (src/utils.rs:178-238); `skip` counts characters up to `curr_pos`. -/
def scanBlocks (pos skip : Nat) : Str → List (Nat × Nat)
  | [] => []
  | c :: r =>
    match skip with
    | k + 1 => scanBlocks (pos + 1) k r
    | 0 =>
      match stripPrefix? c!"{:" (c :: r) with
      | none => scanBlocks (pos + 1) 0 r
      | some body =>
        match scanBlock (pos + 2) body with
        | some e => (pos, e) :: scanBlocks (pos + 1) (e - pos - 1) r
        | none => scanBlocks (pos + 1) 1 r

/-- The check of the text between blocks (src/utils.rs:240-250): the position of a stray `:}`. -/
def checkGaps (src : Str) (prevEnd : Nat) : List (Nat × Nat) → Option Nat
  | [] => (find c!":}" (src.drop prevEnd)).map (fun p => prevEnd + p)
  | (s, e) :: r =>
    match find c!":}" (slice src prevEnd s) with
    | some p => some (prevEnd + p)
    | none => checkGaps src e r

/-- `extract_blocks` (src/utils.rs:172-253).  Positions are character positions. -/
def extractBlocks (src : Str) : Except Nat (List (Nat × Nat)) :=
  let blocks := scanBlocks 0 0 src
  match checkGaps src 0 blocks with
  | some p => .error p
  | none => .ok blocks

/-! ### small helpers -/

/-- `strip_prefix_suffix` (src/utils.rs:266-277). -/
def stripPrefixSuffix (s pre suf : Str) : Str :=
  match stripPrefix? pre s with
  | none => s
  | some r => match stripSuffix? suf r with
    | none => s
    | some x => x

/-- f64 operations are left abstract (IEEE arithmetic and Rust's parser/printer are not modelled). -/
structure F64Ops where
  /-- `str::parse::<f64>()` -/
  parse : Str → Option Nat
  /-- `x > 0.0` -/
  pos : Nat → Bool
  /-- `x + y` -/
  add : Nat → Nat → Nat
  /-- `to_string()` -/
  show_ : Nat → Str

/-- `Number::to_string`. -/
def showNum (F : F64Ops) : Num → Str
  | .int i => showInt i
  | .flt b => F.show_ b

/-- `bool::to_string`. -/
def showBool (b : Bool) : Str := if b then c!"true" else c!"false"

/-! ### resolve_pointer, src/utils.rs:394-450 -/

/-- One segment of a path (src/utils.rs:416-423, 439-446). -/
def resolveStep (cur : Value) (part : Str) : Option Value :=
  match cur with
  | .obj o => Obj.get? part o
  | .arr a => (parseU64 part).bind (fun i => a[i]?)
  | _ => none

/-- The scan of src/utils.rs:408-447; `part` is the current segment, reversed. -/
def resolveGo (cur : Value) (part : Str) : Str → Option Value
  | [] => if part.isEmpty then some cur else resolveStep cur part.reverse
  | c :: r =>
    if c = '/' then
      if part.isEmpty then resolveGo cur [] r
      else (resolveStep cur part.reverse).bind (fun v => resolveGo v [] r)
    else
      match c, r with
      | '-', '>' :: r' =>
        if part.isEmpty then resolveGo cur [] r'
        else (resolveStep cur part.reverse).bind (fun v => resolveGo v [] r')
      | c, r => resolveGo cur (c :: part) r

/-- `resolve_pointer` (src/utils.rs:394-450). -/
def resolvePointer (schema : Value) (key : Str) : Option Value :=
  if !contains c!"->" key && !contains c!"/" key then schema.get? key
  else resolveGo schema [] key

/-- The text of a value in `get_from_key` (src/utils.rs:291-297). -/
def scalarText (F : F64Ops) : Value → Str
  | .null => []
  | .bool b => showBool b
  | .num n => showNum F n
  | .str s => s
  | _ => []

/-- `get_from_key` (src/utils.rs:289-301). -/
def getFromKey (F : F64Ops) (schema : Value) (key : Str) : Str :=
  match resolvePointer schema key with
  | some v => scalarText F v
  | none => []

/-- `is_empty_key` on a resolved value (src/utils.rs:315-322). -/
def emptyVal : Value → Bool
  | .obj o => o.isEmpty
  | .arr a => a.isEmpty
  | .str s => s.isEmpty
  | .null => true
  | .num _ => false
  | .bool _ => false

/-- `is_empty_key` (src/utils.rs:313-326). -/
def isEmptyKey (schema : Value) (key : Str) : Bool :=
  match resolvePointer schema key with
  | some v => emptyVal v
  | none => true

/-- `is_bool_key` on a resolved value (src/utils.rs:340-348). -/
def boolVal (F : F64Ops) : Value → Bool
  | .obj o => !o.isEmpty
  | .arr a => !a.isEmpty
  | .str s =>
    if s.isEmpty || s == c!"false" then false
    else match F.parse s with
      | some n => F.pos n
      | none => true
  | .null => false
  | .num (.int i) => decide (0 < i)
  | .num (.flt b) => F.pos b
  | .bool b => b

/-- `is_bool_key` (src/utils.rs:338-352). -/
def isBoolKey (F : F64Ops) (schema : Value) (key : Str) : Bool :=
  match resolvePointer schema key with
  | some v => boolVal F v
  | none => false

/-- `is_array_key` on a resolved value (src/utils.rs:366-370). -/
def arrayVal : Value → Bool
  | .obj _ => true
  | .arr _ => true
  | _ => false

/-- `is_array_key` (src/utils.rs:364-374). -/
def isArrayKey (schema : Value) (key : Str) : Bool :=
  match resolvePointer schema key with
  | some v => arrayVal v
  | none => false

/-- `Value::is_null`. -/
def Value.isNull : Value → Bool
  | .null => true
  | _ => false

/-- `is_defined_key` (src/utils.rs:386-391). -/
def isDefinedKey (schema : Value) (key : Str) : Bool :=
  match resolvePointer schema key with
  | some v => !v.isNull
  | none => false

/-! ### get_code_position, src/utils.rs:464-495 -/

/-- The scan of src/utils.rs:474-492; `skip = true` is the second half of `i += 2`.  `level` may go
negative as in the code. -/
def codePosGo (level : Int) (pos : Nat) (skip : Bool) : Str → Option Nat
  | [] => none
  | [_] => none
  | c :: d :: r =>
    if skip then codePosGo level (pos + 1) false (d :: r)
    else if c = '{' ∧ d = ':' then codePosGo (level + 1) (pos + 1) true (d :: r)
    else if c = ':' ∧ d = '}' then codePosGo (level - 1) (pos + 1) true (d :: r)
    else if c = '>' ∧ d = '>' then
      if level = 0 then some pos else codePosGo level (pos + 1) true (d :: r)
    else codePosGo level (pos + 1) false (d :: r)

/-- `get_code_position` (src/utils.rs:464-495). -/
def getCodePosition (src : Str) : Option Nat :=
  if !contains c!">>" src then none else codePosGo 0 0 false src

/-! ### remove_comments, src/utils.rs:498-552 -/

/-- Result of the inner loop of `remove_comments`. -/
inductive RC where
  /-- the comment ends just before position `e` -/
  | closed (nested e : Nat)
  /-- no end found; `curr_pos` is left at `e` -/
  | unclosed (nested e : Nat)
  /-- `bytes[curr_pos + 1]` is out of bounds -/
  | panic
deriving DecidableEq

/-- Inner loop (src/utils.rs:514-541).  `cur` is the value `curr_pos` has if no further `:` is found.
`nested_comment` is never reset by the code, so it is threaded through. -/
def scanRC (prev : Char) (nested cur pos : Nat) : Str → RC
  | [] => .unclosed nested cur
  | [c] => if c = ':' then .panic else .unclosed nested cur
  | c :: d :: r =>
    if c = ':' then
      if prev = '{' ∧ d = '*' then scanRC c (nested + 1) (pos + 1) (pos + 1) (d :: r)
      else if prev = '*' ∧ d = '}' then
        if 0 < nested then scanRC c (nested - 1) (pos + 1) (pos + 1) (d :: r)
        else .closed nested (pos + 2)
      else scanRC c nested (pos + 1) (pos + 1) (d :: r)
    else scanRC c nested cur (pos + 1) (d :: r)

/-- Outer loop (src/utils.rs:509-542): the list of comments and the final `curr_pos`, `none` on panic. -/
def scanRCs (nested cur pos skip : Nat) : Str → Option (List (Nat × Nat) × Nat)
  | [] => some ([], cur)
  | c :: r =>
    match skip with
    | k + 1 => scanRCs nested cur (pos + 1) k r
    | 0 =>
      match stripPrefix? c!"{:*" (c :: r) with
      | none => scanRCs nested cur (pos + 1) 0 r
      | some body =>
        match scanRC '*' nested (pos + 3) (pos + 3) body with
        | .panic => none
        | .closed n e => (scanRCs n e (pos + 1) (e - pos - 1) r).map (fun x => ((pos, e) :: x.1, x.2))
        | .unclosed n e => scanRCs n e (pos + 1) (e - pos - 1) r

/-- `for (start, end) in &blocks { result.push_str(&raw_source[prev_end..*start]) }` (src/utils.rs:544-548). -/
def gapsText (src : Str) (prevEnd : Nat) : List (Nat × Nat) → Str
  | [] => []
  | (s, e) :: r => slice src prevEnd s ++ gapsText src e r

/-- `remove_comments` (src/utils.rs:498-552); `none` is a panic. -/
def removeComments (src : Str) : Option Str :=
  (scanRCs 0 0 0 0 src).map (fun x => gapsText src 0 x.1 ++ src.drop x.2)

/-! ### wildcard_match, src/utils.rs:566-608 -/

/-- `'*'`: `match_recursive(text, rest) || (!text.is_empty() && match_recursive(&text[1..], pattern))`
(src/utils.rs:592-595), `f` being the match against the rest of the pattern. -/
def starMatch (f : Str → Bool) : Str → Bool
  | [] => f []
  | c :: cs => f (c :: cs) || starMatch f cs

/-- `match_recursive` (src/utils.rs:570-605), with the pattern as first argument. -/
def matchRec : Str → Str → Bool
  | [], t => t.isEmpty
  | p :: rest, t =>
    if p = '\\' then
      match rest, t with
      | [], _ => false
      | _, [] => false
      | e :: rest', c :: cs => matchRec rest' cs && decide (c = e)
    else if p = '.' then
      matchRec rest t || (match t with
        | [] => false
        | _ :: cs => matchRec rest cs)
    else if p = '?' then
      match t with
      | [] => false
      | _ :: cs => matchRec rest cs
    else if p = '*' then starMatch (matchRec rest) t
    else if p = '~' then t.isEmpty
    else
      match t with
      | [] => false
      | c :: cs => if p ≠ c then false else matchRec rest cs

/-- `wildcard_match` (src/utils.rs:566-608). -/
def wildcardMatch (text pattern : Str) : Bool := matchRec pattern text

/-! ### find_tag_position, src/utils.rs:622-634 -/

/-- `find_tag_position` (src/utils.rs:622-634). -/
def findTagPosition (text tag : Str) : Option Nat :=
  match find tag text with
  | none => none
  | some p =>
    if !startsWith c!"</" tag then
      match find c!">" (text.drop p) with
      | some q => some (p + q + 1)
      | none => none
    else some p

/-! ### escaping, src/utils.rs:677-797 -/

/-- `needs_escape` test of one character (src/utils.rs:678-682). -/
def needsEscape (b : Bool) (c : Char) : Bool :=
  c = '&' || c = '<' || c = '>' || c = '"' || c = '\'' || c = '/' || (b && (c = '{' || c = '}'))

/-- One character of `escape_chars` (src/utils.rs:691-705). -/
def escapeChar (b : Bool) (c : Char) : Str :=
  if c = '&' then c!"&amp;"
  else if c = '<' then c!"&lt;"
  else if c = '>' then c!"&gt;"
  else if c = '"' then c!"&quot;"
  else if c = '\'' then c!"&#x27;"
  else if c = '/' then c!"&#x2F;"
  else if b && c = '{' then c!"&#123;"
  else if b && c = '}' then c!"&#125;"
  else [c]

/-- A `Cow<str>`: was a new string allocated? -/
structure Cow where
  owned : Bool
  val : Str

/-- `escape_chars` (src/utils.rs:677-708) with its `Cow` result. -/
def escapeCow (b : Bool) (s : Str) : Cow :=
  if s.any (needsEscape b) then ⟨true, s.flatMap (escapeChar b)⟩ else ⟨false, s⟩

/-- `escape_chars`. -/
def escapeChars (b : Bool) (s : Str) : Str := (escapeCow b s).val

/-- The entity table of `unescape_chars` (src/utils.rs:775-791). -/
def entityText (b : Bool) (entity : Str) (semi : Bool) : Str :=
  if semi && entity = c!"amp" then c!"&"
  else if semi && entity = c!"lt" then c!"<"
  else if semi && entity = c!"gt" then c!">"
  else if semi && entity = c!"quot" then c!"\""
  else if semi && entity = c!"#x27" then c!"'"
  else if semi && entity = c!"#x2F" then c!"/"
  else if semi && b && entity = c!"#123" then c!"{"
  else if semi && b && entity = c!"#125" then c!"}"
  else '&' :: entity ++ (if semi then c!";" else [])

/-- The loop of `unescape_chars` (src/utils.rs:763-795).  `ent` is `some e` while collecting an entity
(reversed). -/
def unescapeGo (b : Bool) (ent : Option Str) : Str → Str
  | [] => match ent with
    | none => []
    | some e => entityText b e.reverse false
  | c :: r =>
    match ent with
    | none => if c = '&' then unescapeGo b (some []) r else c :: unescapeGo b none r
    | some e => if c = ';' then entityText b e.reverse true ++ unescapeGo b none r
                else unescapeGo b (some (c :: e)) r

/-- `unescape_chars` (src/utils.rs:757-797) with its `Cow` result. -/
def unescapeCow (b : Bool) (s : Str) : Cow :=
  if s.contains '&' then ⟨true, unescapeGo b none s⟩ else ⟨false, s⟩

/-- `unescape_chars`. -/
def unescapeChars (b : Bool) (s : Str) : Str := (unescapeCow b s).val

/-! ### filter_value, filter_value_keys, src/utils.rs:805-880 -/

/-- `filter_value` on a string (src/utils.rs:807-817): the string is replaced only when the last step
allocated. -/
def filterStr (s : Str) : Str :=
  let unescaped := unescapeCow true s
  let processed := if unescaped.owned then escapeCow true unescaped.val else escapeCow true s
  if processed.owned then processed.val else s

mutual
/-- `filter_value` (src/utils.rs:805-830). -/
def filterValue : Value → Value
  | .str s => .str (filterStr s)
  | .obj o => .obj (filterValueObj o)
  | .arr a => .arr (filterValueList a)
  | v => v
/-- `for item in arr.iter_mut()` -/
def filterValueList : List Value → List Value
  | [] => []
  | v :: r => filterValue v :: filterValueList r
/-- `for v in obj.values_mut()` -/
def filterValueObj : List (Str × Value) → List (Str × Value)
  | [] => []
  | (k, v) :: r => (k, filterValue v) :: filterValueObj r
end

/-- `needs_change` of `filter_value_keys` (src/utils.rs:842-846). -/
def keyNeedsChange (k : Str) : Bool :=
  k.contains '&' || k.any (fun c => c = '&' || c = '<' || c = '>' || c = '"' || c = '\'' || c = '/'
    || c = '{' || c = '}')

/-- The new key (src/utils.rs:859-867). -/
def filterKey (k : Str) : Str :=
  let unescaped := unescapeCow true k
  (if unescaped.owned then escapeCow true unescaped.val else escapeCow true k).val

mutual
/-- `filter_value_keys` (src/utils.rs:838-880). -/
def filterValueKeys : Value → Value
  | .obj o =>
    if !(o.any (fun kv => keyNeedsChange kv.1)) then .obj (filterKeysVals o)
    else .obj (filterKeysNew [] o)
  | .arr a => .arr (filterKeysList a)
  | v => v
/-- `for item in arr.iter_mut()` (src/utils.rs:873-877) -/
def filterKeysList : List Value → List Value
  | [] => []
  | v :: r => filterValueKeys v :: filterKeysList r
/-- `for val in obj.values_mut()` (src/utils.rs:850-852) -/
def filterKeysVals : List (Str × Value) → List (Str × Value)
  | [] => []
  | (k, v) :: r => (k, filterValueKeys v) :: filterKeysVals r
/-- The rebuilding loop (src/utils.rs:857-871). -/
def filterKeysNew (acc : Obj) : List (Str × Value) → Obj
  | [] => acc
  | (k, v) :: r => filterKeysNew (Obj.insert (filterKey k) (filterValueKeys v) acc) r
end

end Nts
