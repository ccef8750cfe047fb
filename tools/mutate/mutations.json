[
{
"id": "U01",
"file": "Utils",
"def": "escapeChar",
"old": "  else if c = '<' then c!\"&lt;\"\n  else if c = '>' then c!\"&gt;\"",
"new": "  else if c = '<' then c!\"&lt;\"\n  else if c = '>' then c!\">\"",
"edit": "'>' is not escaped",
"claim": "escaped text has no raw special character",
"breaks": [
"C01"
]
},
{
"id": "U02",
"file": "Utils",
"def": "escapeChar",
"old": "  else if c = '>' then c!\"&gt;\"",
"new": "  else if c = '>' then c!\"&lt;\"",
"edit": "'>' becomes &lt;",
"claim": "unescape undoes escape",
"breaks": [
"C02"
]
},
{
"id": "U03",
"file": "Utils",
"def": "entityText",
"old": "  else if semi && entity = c!\"#x2F\" then c!\"/\"\n",
"new": "",
"edit": "&#x2F; is not decoded",
"claim": "unescape undoes escape",
"breaks": [
"C02",
"C03"
]
},
{
"id": "U04",
"file": "Utils",
"def": "needsEscape",
"old": " || c = '/' || (b &&",
"new": " || (b &&",
"edit": "needs_escape forgets '/'",
"claim": "escaped text has no raw special character",
"breaks": [
"C01"
]
},
{
"id": "U05",
"file": "Utils",
"def": "filterStr",
"old": "if unescaped.owned then escapeCow true unescaped.val else escapeCow true s\n  if processed.owned then processed.val else s",
"new": "escapeCow true s\n  if processed.owned then processed.val else s",
"edit": "filter_value does not unescape first",
"claim": "filtering twice is filtering once",
"breaks": [
"C03"
]
},
{
"id": "U06",
"file": "Utils",
"def": "filterStr",
"old": "let unescaped := unescapeCow true s\n  let processed := if unescaped.owned then escapeCow true unescaped.val",
"new": "let unescaped := unescapeCow true s\n  let processed := if unescaped.owned then escapeCow false unescaped.val",
"edit": "braces are not escaped in text that contains an entity",
"claim": "sanitised CONTEXT has no braces",
"breaks": [
"C04"
]
},
{
"id": "U07",
"file": "Utils",
"def": "filterValueList",
"old": "| v :: r => filterValue v :: filterValueList r",
"new": "| v :: r => filterValue v :: r",
"edit": "only the first element of an array is filtered",
"claim": "sanitised CONTEXT is clean at every depth",
"breaks": [
"C04"
]
},
{
"id": "U08",
"file": "Utils",
"def": "filterKeysVals",
"old": "| (k, v) :: r => (k, filterValueKeys v) :: filterKeysVals r",
"new": "| (k, v) :: r => (k, v) :: filterKeysVals r",
"edit": "nested keys are not filtered when the outer keys are clean",
"claim": "sanitised CONTEXT keys are clean",
"breaks": [
"C04"
]
},
{
"id": "U09",
"file": "Utils",
"def": "mergeObj",
"old": "mergeObj (Obj.insert k (mergeSchema va v) a) r",
"new": "mergeObj (Obj.insert k v a) r",
"edit": "merge replaces nested objects instead of merging them",
"claim": "merge is recursive",
"breaks": [
"C06"
]
},
{
"id": "U10",
"file": "Utils",
"def": "mergeSchema",
"old": "    | _ => .obj b\n  | b => b\n/-- The `for (k, v) in b_map` loop (src/utils.rs:41-47). -/",
"new": "    | _ => .obj b\n  | .null => a\n  | b => b\n/-- The `for (k, v) in b_map` loop (src/utils.rs:41-47). -/",
"edit": "merging null keeps the old value",
"claim": "last writer wins",
"breaks": [
"C06"
]
},
{
"id": "U11",
"file": "Utils",
"def": "entryMerge",
"old": "| (k', x) :: r => if k' = k then (k', f x) :: r else",
"new": "| (k', x) :: r => if k' = k then (k', v) :: r else",
"edit": "the owned merge overwrites occupied entries",
"claim": "the owned merge is the same as the borrowed one",
"breaks": [
"C06"
]
},
{
"id": "U12",
"file": "Utils",
"def": "entryMerge",
"old": "  | [] => [(k, v)]\n",
"new": "  | [] => []\n",
"edit": "the owned merge drops new keys",
"claim": "last writer wins",
"breaks": [
"C06"
]
},
{
"id": "U13",
"file": "Utils",
"def": "syncHeaders",
"old": "| some v => Obj.insert c!\"REQUESTED-WITH-AJAX\" v (Obj.insert c!\"Requested-With-Ajax\" v h)",
"new": "| some v => Obj.insert c!\"Requested-With-Ajax\" v h",
"edit": "the upper case spelling is not written",
"claim": "ajax header in three spellings",
"breaks": [
"C07"
]
},
{
"id": "U14",
"file": "Utils",
"def": "stampVersion",
"old": "a.setIndex c!\"version\" (.str VERSION)",
"new": "some (match a.get? c!\"version\" with | some _ => a | none => (a.setIndex c!\"version\" (.str VERSION)).getD a)",
"edit": "an existing version is kept, no panic on scalars",
"claim": "version is stamped",
"breaks": [
"C07",
"C08"
]
},
{
"id": "U15",
"file": "Utils",
"def": "scanBif",
"old": "      else if d = '}' then\n        if 0 < nested then scanBif",
"new": "      else if d = '}' then\n        if 1 < nested then scanBif",
"edit": "a BIF with one nested BIF is closed at the inner delimiter",
"claim": "blocks are balanced",
"breaks": [
"C14",
"C15"
]
},
{
"id": "U16",
"file": "Utils",
"def": "scanBif",
"old": "      if prev = '{' then scanBif c (nested + 1) (pos + 1) (d :: r)\n",
"new": "      if prev = '{' then scanBif c nested (pos + 1) (d :: r)\n",
"edit": "nested BIFs are not counted",
"claim": "blocks are balanced",
"breaks": [
"C14",
"C15"
]
},
{
"id": "U17",
"file": "Utils",
"def": "scanComment",
"old": "      if prev = '{' \u2227 d = '*' then scanComment c (nested + 1)",
"new": "      if prev = '{' \u2227 d = '*' then scanComment c nested",
"edit": "nested comments are not counted",
"claim": "comments are blocks",
"breaks": [
"C14",
"C17"
]
},
{
"id": "U18",
"file": "Utils",
"def": "scanBlock",
"old": "  | '*' :: _ => scanComment ':' 0 pos body\n",
"new": "",
"edit": "comments are scanned like BIFs",
"claim": "a comment may contain any text",
"breaks": [
"C14",
"C17"
]
},
{
"id": "U19",
"file": "Utils",
"def": "checkGaps",
"old": "  | [] => (find c!\":}\" (src.drop prevEnd)).map (fun p => prevEnd + p)",
"new": "  | [] => none",
"edit": "a stray :} after the last block is accepted",
"claim": "unmatched closing delimiter is reported",
"breaks": [
"C14",
"C29"
]
},
{
"id": "U20",
"file": "Utils",
"def": "extractBlocks",
"old": "  | some p => .error p\n  | none => .ok blocks",
"new": "  | some _ => .ok blocks\n  | none => .ok blocks",
"edit": "stray :} never reported",
"claim": "unmatched closing delimiter is reported",
"breaks": [
"C14",
"C29"
]
},
{
"id": "U21",
"file": "Utils",
"def": "scanBlocks",
"old": "| some e => (pos, e) :: scanBlocks (pos + 1) (e - pos - 1) r",
"new": "| some e => (pos, e) :: scanBlocks (pos + 1) (e - pos) r",
"edit": "the character after a block is skipped",
"claim": "adjacent blocks are found",
"breaks": [
"C14",
"C15"
]
},
{
"id": "U22",
"file": "Utils",
"def": "resolveStep",
"old": "  | .arr a => (parseU64 part).bind (fun i => a[i]?)",
"new": "  | .arr a => (parseU64 part).bind (fun i => a[i - 1]?)",
"edit": "array indices start at 1",
"claim": "paths resolve to the stored value",
"breaks": [
"C09"
]
},
{
"id": "U23",
"file": "Utils",
"def": "resolveGo",
"old": "      else (resolveStep cur part.reverse).bind (fun v => resolveGo v [] r)\n    else",
"new": "      else (resolveStep cur part).bind (fun v => resolveGo v [] r)\n    else",
"edit": "segments before / are reversed",
"claim": "paths resolve to the stored value",
"breaks": [
"C09"
]
},
{
"id": "U24",
"file": "Utils",
"def": "resolvePointer",
"old": "if !contains c!\"->\" key && !contains c!\"/\" key then",
"new": "if !contains c!\"->\" key || !contains c!\"/\" key then",
"edit": "a path with only one kind of separator is taken as a plain key",
"claim": "paths resolve to the stored value",
"breaks": [
"C09"
]
},
{
"id": "U25",
"file": "Utils",
"def": "boolVal",
"old": "  | .num (.int i) => decide (0 < i)",
"new": "  | .num (.int i) => decide (0 \u2264 i)",
"edit": "0 is true",
"claim": "truth tests",
"breaks": [
"C11"
]
},
{
"id": "U26",
"file": "Utils",
"def": "boolVal",
"old": "    if s.isEmpty || s == c!\"false\" then false",
"new": "    if s == c!\"false\" then false",
"edit": "\"\" is true when it is no number",
"claim": "truth tests agree",
"breaks": [
"C11"
]
},
{
"id": "U27",
"file": "Utils",
"def": "emptyVal",
"old": "  | .bool _ => false\n\n/-- `is_empty_key` (src/utils.rs:313-326)",
"new": "  | .bool b => !b\n\n/-- `is_empty_key` (src/utils.rs:313-326)",
"edit": "false is empty",
"claim": "truth tests",
"breaks": [
"C11"
]
},
{
"id": "U28",
"file": "Utils",
"def": "isDefinedKey",
"old": "| some v => !v.isNull\n",
"new": "| some _ => true\n",
"edit": "null is defined",
"claim": "truth tests",
"breaks": [
"C11"
]
},
{
"id": "U29",
"file": "Utils",
"def": "arrayVal",
"old": "  | .obj _ => true\n  | .arr _ => true",
"new": "  | .obj _ => false\n  | .arr _ => true",
"edit": "objects are not arrays",
"claim": "truth tests",
"breaks": [
"C11"
]
},
{
"id": "U30",
"file": "Utils",
"def": "codePosGo",
"old": "      if level = 0 then some pos else",
"new": "      if level \u2264 0 then some pos else",
"edit": ">> accepted at negative level",
"claim": "the separator is the first top-level >>",
"breaks": [
"C18"
]
},
{
"id": "U31",
"file": "Utils",
"def": "codePosGo",
"old": "    else if c = ':' \u2227 d = '}' then codePosGo (level - 1) (pos + 1) true (d :: r)",
"new": "    else if c = ':' \u2227 d = '}' then codePosGo 0 (pos + 1) true (d :: r)",
"edit": "any closing delimiter resets the level",
"claim": "the separator is the first top-level >>",
"breaks": [
"C18"
]
},
{
"id": "U32",
"file": "Utils",
"def": "scanRC",
"old": "        else .closed nested (pos + 2)",
"new": "        else .closed nested (pos + 1)",
"edit": "remove_comments leaves the final brace",
"claim": "comments are removed entirely",
"breaks": [
"C16"
]
},
{
"id": "U33",
"file": "Utils",
"def": "matchRec",
"old": "      | e :: rest', c :: cs => matchRec rest' cs && decide (c = e)",
"new": "      | _ :: rest', _ :: cs => matchRec rest' cs",
"edit": "an escaped character matches anything",
"claim": "wildcard specification",
"breaks": [
"C12"
]
},
{
"id": "U34",
"file": "Utils",
"def": "matchRec",
"old": "    else if p = '~' then t.isEmpty",
"new": "    else if p = '~' then t.isEmpty && rest.isEmpty",
"edit": "~ only at the end of the pattern",
"claim": "wildcard specification",
"breaks": [
"C12"
]
},
{
"id": "U35",
"file": "Utils",
"def": "starMatch",
"old": "  | c :: cs => f (c :: cs) || starMatch f cs",
"new": "  | _ :: cs => starMatch f cs",
"edit": "* must reach the end of the text",
"claim": "wildcard specification",
"breaks": [
"C12"
]
},
{
"id": "U36",
"file": "Utils",
"def": "matchRec",
"old": "      matchRec rest t || (match t with\n        | [] => false\n        | _ :: cs => matchRec rest cs)",
"new": "      (match t with\n        | [] => false\n        | _ :: cs => matchRec rest cs)",
"edit": ". needs exactly one character",
"claim": "wildcard specification",
"breaks": [
"C12"
]
},
{
"id": "U37",
"file": "Utils",
"def": "findTagPosition",
"old": "      | some q => some (p + q + 1)",
"new": "      | some q => some (p + q)",
"edit": "moveto inserts before the > of an opening tag",
"claim": "moveto insertion position",
"breaks": [
"C37"
]
},
{
"id": "U38",
"file": "Utils",
"def": "findTagPosition",
"old": "    else some p",
"new": "    else some (p + 1)",
"edit": "moveto inserts one character late at a closing tag",
"claim": "moveto insertion position",
"breaks": [
"C37"
]
},
{
"id": "U39",
"file": "Utils",
"def": "stripPrefixSuffix",
"old": "    | none => s\n    | some x => x",
"new": "    | none => r\n    | some x => x",
"edit": "prefix stripped although the suffix is missing",
"claim": "only whole BIFs are unwrapped (unreachable: blocks always have both)",
"breaks": []
},
{
"id": "U40",
"file": "Utils",
"def": "scalarText",
"old": "  | .bool b => showBool b\n  | .num n => showNum F n\n  | .str s => s\n  | _ => []",
"new": "  | .bool b => if b then c!\"1\" else []\n  | .num n => showNum F n\n  | .str s => s\n  | _ => []",
"edit": "booleans print 1 or nothing",
"claim": "a variable prints its value",
"breaks": [
"C25"
]
},
{
"id": "S01",
"file": "State",
"def": "createBlockSchema",
"old": "let bid := if inh.blockCount < 1 then c!\"block_1\" else blockId inh.blockCount",
"new": "let bid := if inh.blockCount < 2 then c!\"block_1\" else blockId (inh.blockCount - 1)",
"edit": "the scope copy is made under the parent's number",
"claim": "block scope isolation",
"breaks": [
"C24"
]
},
{
"id": "S02",
"file": "State",
"def": "createBlockSchema",
"old": "    if inh.indir \u2260 bid then\n",
"new": "    if inh.indir = bid then\n",
"edit": "copy on write is skipped",
"claim": "block scope isolation keeps inherited values",
"breaks": [
"C10"
]
},
{
"id": "S03",
"file": "State",
"def": "updateIndir",
"old": "  | some v => { sh with indir := fun x => if x = target then some v else sh.indir x }\n  | none => sh\n\n/-- `Drop",
"new": "  | some _ => sh\n  | none => sh\n\n/-- `Drop",
"edit": "a scope-inheriting block does not copy back",
"claim": "include definitions reach the parent",
"breaks": [
"C24"
]
},
{
"id": "S04",
"file": "State",
"def": "dropBlock",
"old": "if bid \u2260 c!\"block_1\" \u2227 bid = inh.indir then",
"new": "if bid = inh.indir then",
"edit": "the root block is dropped",
"claim": "definitions of the first pass survive",
"breaks": [
"C24"
]
},
{
"id": "S05",
"file": "State",
"def": "pushError",
"old": "(.arr (a ++ [.str line]))",
"new": "(.arr [.str line])",
"edit": "only the last error is kept",
"claim": "errors are never lost",
"breaks": [
"C22"
]
},
{
"id": "S06",
"file": "State",
"def": "pushError",
"old": "{ sh with schema := schema, hasError := true }",
"new": "{ sh with schema := schema }",
"edit": "has_error not set",
"claim": "has_error iff an error was recorded",
"breaks": [
"C22"
]
},
{
"id": "S07",
"file": "State",
"def": "statusCodes",
"old": "(c!\"404\", c!\"Not Found\")",
"new": "(c!\"404\", c!\"Forbidden\")",
"edit": "wrong text for 404",
"claim": "status text corresponds to the code",
"breaks": [
"C53"
]
},
{
"id": "S08",
"file": "State",
"def": "Shared.modIndir",
"old": "if x = k then some v else sh.indir x })",
"new": "if x = k then some v else none })",
"edit": "writing one scope forgets the others",
"claim": "block scope isolation",
"breaks": [
"C24"
]
},
{
"id": "P01",
"file": "Prog",
"def": "childInherit",
"old": "    alias := s.b.alias\n",
"new": "",
"edit": "children do not see the alias of their BIF",
"claim": "coalesce stops, param can be set in code",
"breaks": [
"C35",
"C68"
]
},
{
"id": "P02",
"file": "Prog",
"def": "childInherit",
"old": "    blockCount := s.inh.blockCount + 1 }",
"new": "    blockCount := s.inh.blockCount }",
"edit": "the child shares the block number of its parent",
"claim": "block scope isolation",
"breaks": [
"C24"
]
},
{
"id": "P03",
"file": "Prog",
"def": "runChild",
"old": "let sh3 := if scope then updateIndir sh2 ci2.indir p.2.indir else sh2",
"new": "let sh3 := updateIndir sh2 ci2.indir p.2.indir",
"edit": "definitions always leak to the parent",
"claim": "block scope isolation",
"breaks": [
"C24"
]
},
{
"id": "P04",
"file": "Prog",
"def": "runChild",
"old": ".ok out { s with sh := dropBlock sh3 ci2, inh := p.2 }",
"new": ".ok out { s with sh := dropBlock sh3 ci2, inh := ci2 }",
"edit": "the parent continues with the child's inherit",
"claim": "block scope isolation",
"breaks": [
"C24"
]
},
{
"id": "P05",
"file": "Prog",
"def": "handleUnmatched",
"old": "    statusCode := c!\"500\"\n",
"new": "    statusCode := c!\"400\"\n",
"edit": "unmatched block gives 400",
"claim": "unmatched is reported as 500",
"breaks": [
"C29"
]
},
{
"id": "P06",
"file": "Prog",
"def": "parseSrc",
"old": "| .error p => .ok [] (handleUnmatched sh (byteLen (src.take p))) inh",
"new": "| .error p => .ok src (handleUnmatched sh (byteLen (src.take p))) inh",
"edit": "text with an unmatched :} is printed",
"claim": "unmatched gives no output of that block",
"breaks": [
"C29"
]
},
{
"id": "P07",
"file": "Prog",
"def": "step",
"old": "    .ok () { s with sh := { s.sh with statusCode := code, statusParam := param, statusText := statusTextOf code } }",
"new": "    .ok () { s with sh := { s.sh with statusCode := code, statusParam := param } }",
"edit": "the status text is not updated",
"claim": "status text corresponds to the code",
"breaks": [
"C53"
]
},
{
"id": "P08",
"file": "Prog",
"def": "step",
"old": "| .pushFile .incl p, s => .ok () { s with inh := { s.inh with includeFiles := s.inh.includeFiles ++ [p] } }",
"new": "| .pushFile .incl p, s => .ok () { s with inh := { s.inh with includeFiles := [p] } }",
"edit": "only the last included file is remembered",
"claim": "include once",
"breaks": [
"C52"
]
},
{
"id": "P09",
"file": "Prog",
"def": "step",
"old": "oresOpt ((s.sh.modIndir s.inh.indir (fun x => x.modIndex sec (fun y => some (mergeSchemaOwned y v)))).map",
"new": "oresOpt ((s.sh.modIndir s.inh.indir (fun x => x.setIndex sec v)).map",
"edit": "data/locale replace the section",
"claim": "loaded data is merged",
"breaks": [
"C54",
"C57"
]
},
{
"id": "P10",
"file": "Prog",
"def": "step",
"old": "| .setExit b, s => .ok () { s with sh := { s.sh with exit := b } }",
"new": "| .setExit _, s => .ok () s",
"edit": "exit does not set the flag",
"claim": "exit stops evaluation",
"breaks": [
"C23"
]
},
{
"id": "P11",
"file": "Prog",
"def": "step",
"old": "    oresOpt ((s.sh.schema.modIndex c!\"data\" (fun d => d.setIndex name v)).map",
"new": "    oresOpt ((s.sh.schema.setIndex name v).map",
"edit": "data written at the top of the schema",
"claim": "templates cannot change configuration",
"breaks": [
"C21"
]
},
{
"id": "P12",
"file": "Prog",
"def": "run",
"old": "    | .ok r s' => run R (k r) s'\n",
"new": "    | .ok r _ => run R (k r) s\n",
"edit": "state changes of operations are dropped",
"claim": "everything",
"breaks": [
"C23",
"C36",
"C10"
]
},
{
"id": "B01",
"file": "Bifs",
"def": "bifVar",
"old": "if (s.b.modFilter || s.sh.filterAll) && !s.b.modNegate then",
"new": "if s.b.modFilter && !s.b.modNegate then",
"edit": "filter_all is ignored",
"claim": "filter_all escapes every variable",
"breaks": [
"C25"
]
},
{
"id": "B02",
"file": "Bifs",
"def": "bifVar",
"old": "if !startsWith c!\"CONTEXT->\" varName then reescape true out0 else out0",
"new": "reescape false out0",
"edit": "braces are not escaped by the filter modifier",
"claim": "variable output cannot inject code",
"breaks": [
"C25",
"C26"
]
},
{
"id": "B03",
"file": "Bifs",
"def": "bifVar",
"old": "      else if s.sh.filterBifs then sanitizeBifs out0\n",
"new": "",
"edit": "unfiltered variables keep BIF delimiters",
"claim": "variable output cannot inject code",
"breaks": [
"C25",
"C26"
]
},
{
"id": "B04",
"file": "Bifs",
"def": "bifVar",
"old": "        requireAllow s.b.src c!\"insecure varname\"\n",
"new": "",
"edit": "dynamic variable names need no allow",
"claim": "dynamic variable names require allow",
"breaks": [
"C27"
]
},
{
"id": "B05",
"file": "Bifs",
"def": "sanitizeBifs",
"old": "replaceAll bifClose c!\":&#125;\" (replaceAll bifOpen c!\"&#123;:\" s)",
"new": "replaceAll bifOpen c!\"&#123;:\" s",
"edit": "only the opening delimiter is sanitised",
"claim": "variable output cannot inject code",
"breaks": [
"C25"
]
},
{
"id": "B06",
"file": "Bifs",
"def": "getData",
"old": "  | some r => getFromKey env.f64 (localDataOf s) r\n",
"new": "  | some r => getFromKey env.f64 (dataOf s) r\n",
"edit": "local:: reads global data",
"claim": "a variable prints the value at its path",
"breaks": [
"C25"
]
},
{
"id": "B07",
"file": "Bifs",
"def": "containsAllow",
"old": "if contains c!\"{:allow;\" source || contains c!\"{:!allow;\" source then some true",
"new": "if contains c!\"allow\" source then some true",
"edit": "any occurrence of the word allow is enough",
"claim": "dynamic variable names require allow",
"breaks": [
"C27"
]
},
{
"id": "B08",
"file": "Bifs",
"def": "extractParamsCode",
"old": "code := trim (b.src.drop (p + 2)) }",
"new": "code := trim (b.src.drop (p + 1)) }",
"edit": "the code starts with the second >",
"claim": "the code is the text after >>",
"breaks": [
"C33"
]
},
{
"id": "B09",
"file": "Bifs",
"def": "extractParamsCode",
"old": "    perform (.setFlags [])\n",
"new": "",
"edit": "flags of an earlier BIF leak",
"claim": "flags are those of this BIF",
"breaks": [
"C44"
]
},
{
"id": "B10",
"file": "Bifs",
"def": "argLoop",
"old": "return x :: xs",
"new": "return xs ++ [x]",
"edit": "arguments reversed",
"claim": "argument order",
"breaks": [
"C33",
"C49"
]
},
{
"id": "B11",
"file": "Bifs",
"def": "badFlag",
"old": "find? (fun f => !(allowed.contains f))",
"new": "find? (fun f => allowed.contains f)",
"edit": "flag check inverted",
"claim": "safe code is inert",
"breaks": [
"C44"
]
},
{
"id": "B12",
"file": "Bifs",
"def": "hashPath",
"old": "  | '#' :: r => s.inh.currentDir ++ r",
"new": "  | '#' :: r => r",
"edit": "# is the working directory",
"claim": "file names relative to the current directory",
"breaks": [
"C54",
"C52"
]
},
{
"id": "B13",
"file": "Bifs",
"def": "allowOut",
"old": "if xor (!found.isEmpty) negate then",
"new": "if !found.isEmpty then",
"edit": "negation ignored by allow",
"claim": "allow only lets listed text through",
"breaks": [
"C13"
]
},
{
"id": "B14",
"file": "Bifs",
"def": "allowPattern",
"old": "if contains c!\"|partial|\" flags || contains c!\"|replace|\" flags then c!\"*\" ++ word ++ c!\"*\" else word",
"new": "c!\"*\" ++ word ++ c!\"*\"",
"edit": "allow always matches partially",
"claim": "allow only lets listed text through",
"breaks": [
"C13"
]
},
{
"id": "B15",
"file": "Bifs",
"def": "allowFind",
"old": "(words.find? (fun w => wildcardMatch (allowHaystack env flags code) (allowPattern env flags w))).getD []",
"new": "(words.find? (fun w => wildcardMatch (allowPattern env flags w) (allowHaystack env flags code))).getD []",
"edit": "arguments of wildcard_match swapped",
"claim": "allow only lets listed text through",
"breaks": [
"C13"
]
},
{
"id": "B16",
"file": "Bifs",
"def": "bifAllow",
"old": "    let x \u2190 childParse s.b.code s.b.modScope\n    setCode x\n    let s \u2190 getSt\n    setOut (allowOut env",
"new": "    let x \u2190 childParse s.b.code s.b.modScope\n    let s \u2190 getSt\n    setCode x\n    setOut (allowOut env",
"edit": "allow tests the unevaluated code",
"claim": "allow only lets listed text through",
"breaks": [
"C13"
]
},
{
"id": "B17",
"file": "Bifs",
"def": "condBif",
"old": "if xor (test st.1 st.2) s.b.modNegate then do",
"new": "if test st.1 st.2 then do",
"edit": "negation ignored by conditions",
"claim": "! is the complement",
"breaks": [
"C33"
]
},
{
"id": "B18",
"file": "Bifs",
"def": "condBif",
"old": "  let st := storageOf s s.b.params\n  if xor",
"new": "  let st := storageOf s s.b.code\n  if xor",
"edit": "conditions test the code",
"claim": "conditions test their parameter",
"breaks": [
"C33"
]
},
{
"id": "B20",
"file": "Bifs",
"def": "bifCoalesce",
"old": "  perform (.setLastCoalesce false)\n",
"new": "",
"edit": "coalesce does not reset its state",
"claim": "coalesce evaluates up to the first output",
"breaks": [
"C35"
]
},
{
"id": "B21",
"file": "Bifs",
"def": "bifCode",
"old": "    if hasFlag s.b c!\"noparse\" then .pure () else parseCode s.b.modScope)",
"new": "    parseCode s.b.modScope)",
"edit": "noparse ignored",
"claim": "noparse code is not evaluated",
"breaks": [
"C70"
]
},
{
"id": "B22",
"file": "Bifs",
"def": "bifCode",
"old": "(if hasFlag s.b c!\"safe\" then setCode (sanitizeBifs (reescape false s.b.code))",
"new": "(if hasFlag s.b c!\"safe\" then setCode (reescape false s.b.code)",
"edit": "safe code keeps BIF delimiters",
"claim": "safe code is inert",
"breaks": [
"C44"
]
},
{
"id": "B23",
"file": "Bifs",
"def": "cmpBif",
"old": "if xor (test a b) s.b.modNegate then do",
"new": "if xor (test b a) s.b.modNegate then do",
"edit": "arguments of contains swapped",
"claim": "contains tests the first for the second",
"breaks": [
"C33"
]
},
{
"id": "B24",
"file": "Bifs",
"def": "i32Add",
"old": "  else some ((r + 2 ^ 31) % 2 ^ 32 - 2 ^ 31)",
"new": "  else some r",
"edit": "no wrap-around in count",
"claim": "counters stay in range",
"breaks": [
"C103"
]
},
{
"id": "B25",
"file": "Bifs",
"def": "dataPart",
"old": "(v.get? c!\"data\").getD .null",
"new": "(v.get? c!\"data\").getD v",
"edit": "a document without data key is merged as a whole",
"claim": "only the data part of a document is loaded (C54_wiped documents the present behaviour)",
"breaks": [
"C54"
]
},
{
"id": "B26",
"file": "Bifs",
"def": "mergeJson",
"old": "    perform .createBlockSchema\n    perform (.mergeIndir sec (part v))",
"new": "    perform (.mergeIndir sec (part v))",
"edit": "data writes into the parent scope",
"claim": "block scope isolation",
"breaks": [
"C24"
]
},
{
"id": "B27",
"file": "Bifs",
"def": "bifData",
"old": "if s.b.modNegate && s.inh.dataFiles.contains canon then setOut unprintable\n      else do\n        perform (.pushFile .data canon)",
"new": "if s.inh.dataFiles.contains canon then setOut unprintable\n      else do\n        perform (.pushFile .data canon)",
"edit": "data never loads twice",
"claim": "data loads the file",
"breaks": [
"C54"
]
},
{
"id": "B28",
"file": "Bifs",
"def": "bifLocale",
"old": "        mergeJson env c!\"locale\" id text\n        setOut unprintable",
"new": "        mergeJson env c!\"trans\" id text\n        setOut unprintable",
"edit": "locale files are merged into the wrong section",
"claim": "translations are merged",
"breaks": [
"C57"
]
},
{
"id": "B29",
"file": "Bifs",
"def": "bifDate",
"old": "  else match env.utcFormat t s.b.src with",
"new": "  else match env.utcFormat t s.b.code with",
"edit": "date formats the evaluated code",
"claim": "date formats the raw text",
"breaks": [
"C73"
]
},
{
"id": "B30",
"file": "Bifs",
"def": "bifDeclare",
"old": "  if contains c!\"snippet\" s.inh.currentFile then do\n    perform .createBlockSchema\n    (if contains bifOpen s.b.code then do",
"new": "  if true then do\n    perform .createBlockSchema\n    (if contains bifOpen s.b.code then do",
"edit": "declare allowed everywhere",
"claim": "declare only in snippet files",
"breaks": [
"C71"
]
},
{
"id": "B31",
"file": "Bifs",
"def": "eachIter",
"old": "  perform (.setData keyName (.str key))\n  perform (.setData valName val)",
"new": "  perform (.setData valName (.str key))\n  perform (.setData keyName val)",
"edit": "key and value swapped in each",
"claim": "each binds key and value",
"breaks": [
"C36"
]
},
{
"id": "B32",
"file": "Bifs",
"def": "bifEach",
"old": "        perform (.setData keyName restoreKey)\n        perform (.setData valName restoreVal)",
"new": "        perform (.setData keyName restoreKey)",
"edit": "the value variable is not restored",
"claim": "loops restore their variables",
"breaks": [
"C36"
]
},
{
"id": "B33",
"file": "Bifs",
"def": "eachIter",
"old": "{ b with out := b.out ++ x })\n\n/-- The elements",
"new": "{ b with out := x })\n\n/-- The elements",
"edit": "each prints only the last round",
"claim": "each prints every round",
"breaks": [
"C36"
]
},
{
"id": "B34",
"file": "Bifs",
"def": "forValues",
"old": "if a > b then (intRange b a).reverse else intRange a b",
"new": "if a > b then intRange b a else intRange a b",
"edit": "descending for counts upwards",
"claim": "for visits a..b",
"breaks": [
"C36"
]
},
{
"id": "B35",
"file": "Bifs",
"def": "intRange",
"old": "(List.range (b - a + 1).toNat)",
"new": "(List.range (b - a).toNat)",
"edit": "for misses the last value",
"claim": "for visits a..b",
"breaks": [
"C36"
]
},
{
"id": "B36",
"file": "Bifs",
"def": "bifFor",
"old": "            setData varName restore\n",
"new": "            setData varName []\n",
"edit": "for clears its variable",
"claim": "loops restore their variables",
"breaks": [
"C36"
]
},
{
"id": "B37",
"file": "Bifs",
"def": "bifElse",
"old": "if xor s.inh.lastBifOut s.b.modNegate then setOut []",
"new": "if s.inh.lastBifOut then setOut []",
"edit": "!else is else",
"claim": "else is the complement",
"breaks": [
"C34"
]
},
{
"id": "B38",
"file": "Bifs",
"def": "bifEval",
"old": "      setData c!\"__eval__\" restore\n",
"new": "",
"edit": "__eval__ not restored",
"claim": "eval restores __eval__",
"breaks": [
"C58"
]
},
{
"id": "B39",
"file": "Bifs",
"def": "outUncached",
"old": "setOut (if s.inh.inCache then",
"new": "setOut (if !s.inh.inCache then",
"edit": "inCache inverted",
"claim": "exit works in cached blocks",
"breaks": [
"C23"
]
},
{
"id": "B40",
"file": "Bifs",
"def": "bifExit",
"old": "(if s.b.params.isEmpty then c!\"200\" else s.b.params)",
"new": "(if s.b.params.isEmpty then c!\"200\" else s.b.code)",
"edit": "exit takes the status from the code",
"claim": "exit status",
"breaks": [
"C23"
]
},
{
"id": "B41",
"file": "Bifs",
"def": "bifExit",
"old": "perform (.setExit (!s.b.modNegate))\n\n/-- `DIV",
"new": "perform (.setExit s.b.modNegate)\n\n/-- `DIV",
"edit": "exit and !exit swapped",
"claim": "exit stops evaluation",
"breaks": [
"C23"
]
},
{
"id": "B42",
"file": "Bifs",
"def": "bifFetch",
"old": "  if !s.sh.disableJs && !s.sh.alreadyJs then do",
"new": "  if !s.sh.disableJs then do",
"edit": "the script is emitted every time",
"claim": "fetch script at most once",
"breaks": [
"C46"
]
},
{
"id": "B43",
"file": "Bifs",
"def": "bifFetch",
"old": "  if !s.sh.disableJs && !s.sh.alreadyJs then do",
"new": "  if !s.sh.alreadyJs then do",
"edit": "disable_js ignored",
"claim": "no script when disabled",
"breaks": [
"C46"
]
},
{
"id": "B44",
"file": "Bifs",
"def": "bifInclude",
"old": "        perform (.pushFile .incl canon)\n",
"new": "",
"edit": "included files are not remembered",
"claim": "include once",
"breaks": [
"C52"
]
},
{
"id": "B45",
"file": "Bifs",
"def": "bifInclude",
"old": "if s.b.modNegate && s.inh.includeFiles.contains canon then setOut []",
"new": "if s.inh.includeFiles.contains canon then setOut []",
"edit": "plain include includes once",
"claim": "include includes",
"breaks": [
"C52"
]
},
{
"id": "B46",
"file": "Bifs",
"def": "bifInclude",
"old": "        setCode (sanitizeBifs (reescape false raw))",
"new": "        setCode (reescape false raw)",
"edit": "safe include keeps BIF delimiters",
"claim": "safe code is inert",
"breaks": [
"C44"
]
},
{
"id": "B47",
"file": "Bifs",
"def": "joinValue",
"old": "joinStr sep (o.map (fun kv => joinText env kv.2))",
"new": "joinStr sep (o.map (fun kv => kv.1))",
"edit": "join prints keys instead of values",
"claim": "join",
"breaks": [
"C59"
]
},
{
"id": "B48",
"file": "Bifs",
"def": "bifMoveto",
"old": "(env.md5 (replaceAll c!\" \" [] (replaceAll c!\"\\n\" [] s.b.code)))",
"new": "(env.md5 s.b.params)",
"edit": "moveto keyed by the tag",
"claim": "each distinct code is moved",
"breaks": [
"C37"
]
},
{
"id": "B49",
"file": "Bifs",
"def": "bifParam",
"old": "    if s.inh.alias = c!\"code\" then do",
"new": "    if s.inh.alias \u2260 c!\"code\" then do",
"edit": "param settable only outside code",
"claim": "param set in code is readable",
"breaks": [
"C10"
]
},
{
"id": "B50",
"file": "Bifs",
"def": "bifRand",
"old": "            if x > y then bifError",
"new": "            if x \u2265 y then bifError",
"edit": "rand x..x rejected",
"claim": "rand respects its range",
"breaks": [
"C48"
]
},
{
"id": "B51",
"file": "Bifs",
"def": "bifRand",
"old": "setOut (showInt (env.randRange t x y))",
"new": "setOut (showInt (env.randRange t x (y + 1)))",
"edit": "rand upper bound off by one",
"claim": "rand respects its range",
"breaks": [
"C48"
]
},
{
"id": "B52",
"file": "Bifs",
"def": "redirectPlan",
"old": "(if code.isEmpty then .error c!\"this redirection requires URL\" else .ok (params, none))",
"new": ".ok (params, none)",
"edit": "redirect without URL",
"claim": "redirect requires a URL",
"breaks": [
"C41"
]
},
{
"id": "B53",
"file": "Bifs",
"def": "redirectPlan",
"old": "    else if !contains c!\"js:reload:self\" code || !contains c!\"js:reload:top\" code then\n      .error c!\"status code not allowed\"\n    else .ok (c!\"200\", none)",
"new": "    else .ok (params, none)",
"edit": "any status accepted by redirect",
"claim": "redirect accepts only documented types",
"breaks": [
"C41"
]
},
{
"id": "B54",
"file": "Bifs",
"def": "bifReplace",
"old": "setOut (replaceAll a b s.b.code)",
"new": "setOut (replaceAll b a s.b.code)",
"edit": "replace swapped",
"claim": "replacement",
"breaks": [
"C49"
]
},
{
"id": "B55",
"file": "Bifs",
"def": "bifSnippet",
"old": "      perform (.setIndir c!\"snippets\" s.b.params (.str s.b.code))",
"new": "      perform (.setIndir c!\"snippets\" s.b.code (.str s.b.params))",
"edit": "snippet name and body swapped",
"claim": "snippets can be played",
"breaks": [
"C10"
]
},
{
"id": "B56",
"file": "Bifs",
"def": "bifSum",
"old": "env.f64.add x y",
"new": "env.f64.add x x",
"edit": "sum adds the first argument twice",
"claim": "sum adds its arguments",
"breaks": [
"C48"
]
},
{
"id": "B57",
"file": "Bifs",
"def": "bifTrans",
"old": "(if s.b.modNegate then [] else s.b.src)",
"new": "s.b.src",
"edit": "!trans falls back to the text",
"claim": "trans fallback",
"breaks": [
"C45"
]
},
{
"id": "B58",
"file": "Bifs",
"def": "getTrans",
"old": ".index s.sh.lang) text",
"new": ".index c!\"en\") text",
"edit": "always the English translation",
"claim": "translation in the current language",
"breaks": [
"C45"
]
},
{
"id": "B59",
"file": "Bifs",
"def": "cacheId",
"old": "id ++ s.sh.lang ++ expires",
"new": "id ++ expires",
"edit": "language not in the cache key",
"claim": "cached text of another language is not served",
"breaks": [
"C38"
]
},
{
"id": "B60",
"file": "Bifs",
"def": "cacheId",
"old": "      ++ (if hasCookies then env.jsonShow (ctx.index c!\"COOKIES\") else [])\n",
"new": "",
"edit": "cookies not in the cache key",
"claim": "cached text of another user is not served",
"breaks": [
"C38"
]
},
{
"id": "B61",
"file": "Bifs",
"def": "cacheOff",
"old": "(hasPost && !sh.cacheOnPost)",
"new": "(hasPost && !sh.cacheOnGet)",
"edit": "wrong switch for POST",
"claim": "POST requests are not cached unless configured",
"breaks": [
"C38"
]
},
{
"id": "B62",
"file": "Bifs",
"def": "cacheExpired",
"old": "some (decide (now > mtime + expires))",
"new": "some (decide (now > mtime))",
"edit": "cache expires at once",
"claim": "a fresh entry is served",
"breaks": [
"C38"
]
},
{
"id": "B63",
"file": "Bifs",
"def": "cacheStore",
"old": "      | none => perform (.writeFile file s.b.code (env.now t))",
"new": "      | none => perform (.writeFile file s.b.out (env.now t))",
"edit": "same text written (equivalent: out = code here)",
"claim": "none (equivalent mutant)",
"breaks": []
},
{
"id": "B64",
"file": "Bifs",
"def": "cacheStore",
"old": "      | none => perform (.writeFile file s.b.code (env.now t))",
"new": "      | none => perform (.writeFile dir s.b.code (env.now t))",
"edit": "stored in the wrong place",
"claim": "a stored entry is found again",
"breaks": [
"C38"
]
},
{
"id": "B65",
"file": "Bifs",
"def": "cacheParse",
"old": "    perform (.setInCache true)\n    let x \u2190 childParse s.b.code s.b.modScope\n    store x\n    perform (.setInCache restore)",
"new": "    let x \u2190 childParse s.b.code s.b.modScope\n    store x\n    perform (.setInCache restore)",
"edit": "in_cache not set while caching",
"claim": "!cache blocks are not cached",
"breaks": [
"C75"
]
},
{
"id": "B66",
"file": "Bifs",
"def": "bifCache",
"old": "    if s.inh.inCache then setOut s.raw\n",
"new": "    if s.inh.inCache then setOut s.b.code\n",
"edit": "!cache leaves its code without the wrapper",
"claim": "!cache blocks are evaluated on every request",
"breaks": [
"C75"
]
},
{
"id": "B67",
"file": "Bifs",
"def": "bifBody",
"old": "  else if name = c!\"declare\" then bifDeclare",
"new": "  else if name = c!\"declare\" then bifParam env",
"edit": "wrong dispatch",
"claim": "declare",
"breaks": [
"C10"
]
},
{
"id": "B68",
"file": "Bifs",
"def": "bifUnknown",
"old": "  bifError c!\"unknown bif\"",
"new": "  setOut c!\"unknown bif\"",
"edit": "unknown BIFs print a message",
"claim": "unknown BIFs produce no output",
"breaks": [
"C42"
]
},
{
"id": "B69",
"file": "Bifs",
"def": "bifFlg",
"old": "(replaceAll c!\" \" c!\"|\" (c!\" \" ++ s.b.code ++ c!\" \"))",
"new": "(replaceAll c!\" \" c!\"|\" s.b.code)",
"edit": "flags without outer bars",
"claim": "a written flag is seen",
"breaks": [
"C44"
]
},
{
"id": "B70",
"file": "Bifs",
"def": "extractArgs",
"old": "| d :: r => argLoop (splitChar d (d :: r))",
"new": "| d :: r => argLoop (splitChar d r)",
"edit": "the leading delimiter gives no empty argument",
"claim": "argument positions",
"breaks": [
"C33",
"C49"
]
},
{
"id": "I01",
"file": "Interp",
"def": "setModifiers",
"old": "    else if c = '+' then setModifiers { b with modScope := true } r",
"new": "    else if c = '+' then setModifiers { b with modUpline := true } r",
"edit": "+ sets upline",
"claim": "+ shares the scope",
"breaks": [
"C35"
]
},
{
"id": "I02",
"file": "Interp",
"def": "bifFinish",
"old": "{ s.inh with lastBifOut := ne, lastCoalesceOut := ne }",
"new": "{ s.inh with lastBifOut := ne }",
"edit": "coalesce never learns of output",
"claim": "coalesce stops",
"breaks": [
"C35"
]
},
{
"id": "I03",
"file": "Interp",
"def": "bifFinish",
"old": "let ne := !s.b.out.isEmpty",
"new": "let ne := s.b.out.isEmpty",
"edit": "else inverted",
"claim": "else is the complement",
"breaks": [
"C34"
]
},
{
"id": "I04",
"file": "Interp",
"def": "runBif",
"old": "if sh.count + 1 > sh.max then",
"new": "if sh.count > sh.max then",
"edit": "one BIF too many allowed",
"claim": "bounded by infinite_loop_max_bifs",
"breaks": [
"C19"
]
},
{
"id": "I05",
"file": "Interp",
"def": "runBif",
"old": "{ sh with count := sh.count + 1 }",
"new": "sh",
"edit": "BIFs are not counted",
"claim": "bounded by infinite_loop_max_bifs",
"breaks": [
"C19"
]
},
{
"id": "I06",
"file": "Interp",
"def": "blocksGo",
"old": "    if sh.exit then .ok out sh inh\n    else\n",
"new": "",
"edit": "exit ignored by the block loop",
"claim": "exit stops evaluation",
"breaks": [
"C23"
]
},
{
"id": "I07",
"file": "Interp",
"def": "blocksGo",
"old": "if startsWith c!\"{:*\" (slice src s e) ||",
"new": "if ",
"edit": "comments are evaluated",
"claim": "comments are never executed",
"breaks": [
"C17"
]
},
{
"id": "I08",
"file": "Interp",
"def": "blocksGo",
"old": "(inh.lastCoalesceOut && inh.alias = c!\"coalesce\")",
"new": "inh.lastCoalesceOut",
"edit": "every block acts like coalesce",
"claim": "BIFs after an output are evaluated",
"breaks": [
"C68",
"C77"
]
},
{
"id": "I09",
"file": "Interp",
"def": "blocksGo",
"old": "let out1 := if prevEnd < s then out ++ slice src prevEnd s else out",
"new": "let out1 := if prevEnd + 1 < s then out ++ slice src prevEnd s else out",
"edit": "a single character between BIFs is lost",
"claim": "plain text is unchanged",
"breaks": [
"C28"
]
},
{
"id": "I10",
"file": "Interp",
"def": "bifParse",
"old": "      | some _ => .ok [] (pushError sh (oneLine",
"new": "      | some _ => .ok raw (pushError sh (oneLine",
"edit": "malformed BIFs are printed",
"claim": "malformed BIFs produce no output",
"breaks": [
"C42"
]
},
{
"id": "I11",
"file": "Interp",
"def": "bifResult",
"old": "      bifFinish { s with sh := pushError sh1 (errorLine (env.localTime s.sh.w.tick) e) }",
"new": "      bifFinish { s with sh := sh1 }",
"edit": "errors of BIFs are not recorded",
"claim": "errors are never lost",
"breaks": [
"C22",
"C42"
]
},
{
"id": "I12",
"file": "Interp",
"def": "bifParse",
"old": "if !only.isEmpty && !contains only name && !inh.inOnly then .ok raw sh inh\n    else match",
"new": "if !only.isEmpty && !contains only name then .ok raw sh inh\n    else match",
"edit": "BIFs inside !cache are not evaluated in the second pass",
"claim": "!cache blocks are evaluated",
"breaks": [
"C38"
]
},
{
"id": "I13",
"file": "Interp",
"def": "bifFinish",
"old": "(if s.b.modUpline then backspace ++ s.b.out else s.b.out)",
"new": "(if s.b.modUpline then s.b.out ++ backspace else s.b.out)",
"edit": "upline mark after the output",
"claim": "upline removes preceding white space",
"breaks": [
"C69"
]
},
{
"id": "T01",
"file": "Template",
"def": "Shared.new",
"old": "      exit := false\n",
"new": "      exit := true\n",
"edit": "renders start exited",
"claim": "render evaluates",
"breaks": [
"C77"
]
},
{
"id": "T02",
"file": "Template",
"def": "Shared.new",
"old": "cacheOnGet := isBoolKey env.f64 cfg c!\"cache_on_get\"",
"new": "cacheOnGet := isBoolKey env.f64 cfg c!\"cache_on_post\"",
"edit": "wrong configuration key",
"claim": "configuration is honoured",
"breaks": [
"C82"
]
},
{
"id": "T03",
"file": "Template",
"def": "Shared.new",
"old": "filterAll := isBoolKey env.f64 cfg c!\"filter_all\"",
"new": "filterAll := false",
"edit": "filter_all never read",
"claim": "filter_all escapes every variable",
"breaks": [
"C82"
]
},
{
"id": "T04",
"file": "Template",
"def": "Shared.new",
"old": "filterBifs := !cacheDisable",
"new": "filterBifs := cacheDisable",
"edit": "BIF sanitising inverted",
"claim": "rendered data is never evaluated",
"breaks": [
"C26"
]
},
{
"id": "T05",
"file": "Template",
"def": "filterContext",
"old": "some (filterValueKeys (filterValue c))",
"new": "some (filterValueKeys c)",
"edit": "CONTEXT values are not filtered",
"claim": "CONTEXT is sanitised",
"breaks": [
"C04"
]
},
{
"id": "T06",
"file": "Template",
"def": "initShared",
"old": "bind (fun s => s.setIndex c!\"__error\" (.arr [])) with\n    | none => .error .index\n    | some schema1 =>\n      match filterContext schema1 with\n      | none => .error .index\n      | some schema2 =>\n        .ok (raw',\n          { p.1 with\n            schema := schema2\n            indir := fun x => if x = p.2.indir then some (schema1.index c!\"inherit\") else none },\n          { p.2 with\n            currentFile := filePath\n            currentDir := if filePath.isEmpty then p.1.workingDir else (env.parent filePath).getD p.2.currentDir })\n\n/-- The part of `init_render_once`",
"new": "bind some with\n    | none => .error .index\n    | some schema1 =>\n      match filterContext schema1 with\n      | none => .error .index\n      | some schema2 =>\n        .ok (raw',\n          { p.1 with\n            schema := schema2\n            indir := fun x => if x = p.2.indir then some (schema1.index c!\"inherit\") else none },\n          { p.2 with\n            currentFile := filePath\n            currentDir := if filePath.isEmpty then p.1.workingDir else (env.parent filePath).getD p.2.currentDir })\n\n/-- The part of `init_render_once`",
"edit": "the error list is not reset",
"claim": "errors are those of the last render",
"breaks": [
"C22",
"C30"
]
},
{
"id": "T07",
"file": "Template",
"def": "cacheLoop",
"old": "      | .ok out' sh' _ => cacheLoop env inh n sh' out'",
"new": "      | .ok out' _ _ => cacheLoop env inh n sh out'",
"edit": "effects of the second pass are lost",
"claim": "exit in !cache takes effect",
"breaks": [
"C23"
]
},
{
"id": "T08",
"file": "Template",
"def": "movetoInsert",
"old": "| some p => out.take p ++ text ++ out.drop p",
"new": "| some p => out.take p ++ text ++ out.drop (p + 1)",
"edit": "moveto eats a character",
"claim": "moveto keeps the document",
"breaks": [
"C37"
]
},
{
"id": "T09",
"file": "Template",
"def": "dropMark",
"old": "    | none => c :: dropMark mark 0 r",
"new": "    | none => c :: dropMark mark 1 r",
"edit": "every second character lost",
"claim": "output without marks is unchanged",
"breaks": [
"C47"
]
},
{
"id": "T10",
"file": "Template",
"def": "replacements",
"old": "replaceAll unprintable [] (dropBackspace 0 out)",
"new": "dropBackspace 0 out",
"edit": "unprintable marks are kept",
"claim": "marks never reach the user",
"breaks": [
"C47"
]
},
{
"id": "T11",
"file": "Template",
"def": "finalOut",
"old": "strLe c!\"400\" sh.statusCode && strLe sh.statusCode c!\"599\"",
"new": "strLe c!\"401\" sh.statusCode && strLe sh.statusCode c!\"599\"",
"edit": "400 keeps the content",
"claim": "error statuses replace the content",
"breaks": [
"C40"
]
},
{
"id": "T12",
"file": "Template",
"def": "finalOut",
"old": "strLe c!\"400\" sh.statusCode && strLe sh.statusCode c!\"599\"",
"new": "strLe c!\"400\" sh.statusCode",
"edit": "600 wipes the content",
"claim": "other statuses keep the content",
"breaks": [
"C40"
]
},
{
"id": "T13",
"file": "Template",
"def": "finalOut",
"old": "sh.statusCode ++ c!\" \" ++ sh.statusText ++ c!\"\\n\" ++ sh.statusParam",
"new": "sh.statusCode ++ c!\" \" ++ sh.statusText",
"edit": "redirect output without URL",
"claim": "redirect output",
"breaks": [
"C40"
]
},
{
"id": "T14",
"file": "Template",
"def": "Tpl.render",
"old": "  if !contains bifOpen t.raw then .ok { t with out := trim t.raw }\n  else renderWith",
"new": "  if !contains bifOpen t.raw then .ok { t with out := t.raw }\n  else renderWith",
"edit": "fast path does not trim",
"claim": "render_once equals render",
"breaks": [
"C30",
"C28"
]
},
{
"id": "T15",
"file": "Template",
"def": "Tpl.renderOnce",
"old": "else renderOnceWith env n t .null (Shared.new env w t.schema)",
"new": "else renderOnceWith env n t .null (Shared.new env w .null)",
"edit": "render_once uses the emptied schema",
"claim": "render_once equals render",
"breaks": [
"C30"
]
},
{
"id": "T16",
"file": "Template",
"def": "Tpl.render",
"old": "else renderWith env n t t.schema (Shared.new env w t.schema)",
"new": "else renderWith env n t .null (Shared.new env w t.schema)",
"edit": "render consumes the schema",
"claim": "render can be repeated",
"breaks": [
"C31"
]
},
{
"id": "T17",
"file": "Template",
"def": "movetoTag",
"old": "  let tag := if startsWith c!\"<\" key then key else '<' :: key",
"new": "  let tag := key",
"edit": "tag name without < is searched as text",
"claim": "moveto tag",
"breaks": [
"C37"
]
},
{
"id": "T18",
"file": "Template",
"def": "Tpl.fromFileValue",
"old": "match updateSchemaOwned defaultSchema v, Shared.new env w defaultSchema with",
"new": "match some v, Shared.new env w defaultSchema with",
"edit": "from_file_value ignores the default schema",
"claim": "constructor merges onto the defaults",
"breaks": [
"C60"
]
},
{
"id": "F01",
"file": "FastCgi",
"def": "header",
"old": "UInt8.ofNat ((len >>> 8) &&& 0xFF), UInt8.ofNat (len &&& 0xFF),",
"new": "UInt8.ofNat (len &&& 0xFF), UInt8.ofNat ((len >>> 8) &&& 0xFF),",
"edit": "length bytes swapped",
"claim": "framing",
"breaks": [
"C50"
]
},
{
"id": "F02",
"file": "FastCgi",
"def": "writeRecord",
"old": "let pad := (8 - (content.length % 8)) % 8",
"new": "let pad := 8 - (content.length % 8)",
"edit": "padding of 8 for aligned records",
"claim": "framing (any padding < 256 is legal; the spec fixes the size)",
"breaks": [
"C50"
]
},
{
"id": "F03",
"file": "FastCgi",
"def": "writeLength",
"old": "if len < 128 then",
"new": "if len < 256 then",
"edit": "one byte length up to 255",
"claim": "framing",
"breaks": [
"C50"
]
},
{
"id": "F04",
"file": "FastCgi",
"def": "writePair",
"old": "return a ++ b ++ name ++ value",
"new": "return a ++ name ++ b ++ value",
"edit": "length fields misplaced",
"claim": "framing",
"breaks": [
"C50"
]
},
{
"id": "F05",
"file": "FastCgi",
"def": "readRound",
"old": "else if type = 7 then .next s out (err ++ content)",
"new": "else if type = 7 then .next s (out ++ content) err",
"edit": "stderr mixed into stdout",
"claim": "response",
"breaks": [
"C50"
]
},
{
"id": "F06",
"file": "FastCgi",
"def": "readRound",
"old": "if be16 i1 i0 \u2260 1 then .next s out err",
"new": "if False then .next s out err",
"edit": "records of other requests accepted",
"claim": "response",
"breaks": [
"C50"
]
},
{
"id": "F07",
"file": "FastCgi",
"def": "short",
"old": ".error c!\"failed to fill whole buffer\"",
"new": ".ok (out, err)",
"edit": "empty answers accepted",
"claim": "a cut answer is an error",
"breaks": [
"C56"
]
},
{
"id": "F08",
"file": "FastCgi",
"def": "sendRequest",
"old": "  let w \u2190 writeRecord fail 5 1 [] w\n",
"new": "",
"edit": "stdin is not terminated",
"claim": "framing",
"breaks": [
"C50"
]
},
{
"id": "F09",
"file": "FastCgi",
"def": "httpBody",
"old": "  | none =>\n    match splitOnce ['\\n', '\\n'] s with\n    | some (_, r) => r\n    | none => s",
"new": "  | none => s",
"edit": "headers with bare newlines kept",
"claim": "body",
"breaks": [
"C50"
]
},
{
"id": "F10",
"file": "FastCgi",
"def": "execPhp",
"old": "if !(trim err).isEmpty then .error",
"new": "if (trim err).isEmpty then .error",
"edit": "stderr test inverted",
"claim": "errors of PHP are reported",
"breaks": [
"C50"
]
},
{
"id": "X01",
"file": "CacheFs",
"def": "step",
"old": "some { s.go p (.writing 0) with file := some ([], s.now) }",
"new": "some { s.go p (.writing 0) with file := some ((s.file.map (\u00b7.1)).getD [], s.now) }",
"edit": "the file is not truncated",
"claim": "cache files are complete",
"breaks": [
"C39"
]
},
{
"id": "X02",
"file": "CacheFs",
"def": "step",
"old": "if t > m + c.life then .evaluating else .opening",
"new": "if t > m + c.life then .opening else .evaluating",
"edit": "expired entries are served",
"claim": "cache",
"breaks": [
"C39"
]
},
{
"id": "X03",
"file": "CacheFs",
"def": "readEnd",
"old": ".done (if c.valid acc then acc else if c.bifs p then c.text p else [])",
"new": ".done acc",
"edit": "invalid text is returned",
"claim": "origin of the output",
"breaks": [
"C39"
]
},
{
"id": "X04",
"file": "CacheFs",
"def": "writeAt",
"old": "f.take off ++ List.replicate (off - f.length) 0 ++ chunk ++ f.drop (off + chunk.length)",
"new": "f ++ chunk",
"edit": "appending instead of writing at an offset (equal for a single writer)",
"claim": "origin of the output",
"breaks": [
"C39"
]
},
{
"id": "X05",
"file": "CacheFs",
"def": "step",
"old": "| .createFails p => match s.phase p with\n    | .evaluating => some (s.go p (.done (c.text p)))",
"new": "| .createFails p => match s.phase p with\n    | .evaluating => some (s.go p (.done []))",
"edit": "nothing printed when the cache cannot be written",
"claim": "output when storing fails",
"breaks": [
"C39"
]
},
{
"id": "N01",
"file": "Python",
"def": "importModule",
"old": "| some _ => .ok I\n  | none =>\n    match I.path",
"new": "| some _ => .error c!\"loaded\"\n  | none =>\n    match I.path",
"edit": "a loaded module cannot be used again",
"claim": "a Python object runs its own script",
"breaks": [
"C62"
]
},
{
"id": "N02",
"file": "Python",
"def": "setAttrs",
"old": "if n = name then (I.modules n).map f else I.modules n }",
"new": "(I.modules n).map f }",
"edit": "attributes are written to every module",
"claim": "the schema of another call is not seen",
"breaks": [
"C63"
]
},
{
"id": "N03",
"file": "Python",
"def": "tstep",
"old": "(fun m => { m with schema := none }), { t with pc := .setSchema })",
"new": "(fun m => m), { t with pc := .setSchema })",
"edit": "the old schema is not deleted",
"claim": "the schema of an earlier call is not seen",
"breaks": [
"C63"
]
},
{
"id": "N04",
"file": "Python",
"def": "tstep",
"old": "(fun m => { m with data := none }), { t with pc := .setData })",
"new": "(fun m => m), { t with pc := .setData })",
"edit": "the old schema data are not deleted",
"claim": "the data of an earlier call are not seen",
"breaks": [
"C63"
]
},
{
"id": "N05",
"file": "Python",
"def": "tstep",
"old": "(fun m => { m with data := some v })",
"new": "(fun m => { m with schema := some v })",
"edit": "schema_data assigned to the schema attribute",
"claim": "a Python object sees what it asked for",
"breaks": [
"C63"
]
},
{
"id": "N06",
"file": "Python",
"def": "tstep",
"old": "| some m =>\n      if S.defines m.file t.args.callback then",
"new": "| some m =>\n      if true then",
"edit": "missing functions are called",
"claim": "a call of a missing function is an error",
"breaks": [
"C62"
]
},
{
"id": "N07",
"file": "Python",
"def": "tstep",
"old": "{ I with path := I.path ++ [S.dir t.args.file] }",
"new": "{ I with path := S.dir t.args.file :: I.path }",
"edit": "sys.path is searched from the newest directory (a possible fix)",
"claim": "C62_refuted describes the code",
"breaks": [
"C62"
]
},
{
"id": "N08",
"file": "Bifs",
"def": "ensureBridge",
"old": "if fileExists s bridge then .pure ()\n    else do",
"new": "if false then .pure ()\n    else do",
"edit": "an existing bridge script is overwritten",
"claim": "files changed by a render",
"breaks": [
"C61"
]
},
{
"id": "N09",
"file": "Bifs",
"def": "ensureBridge",
"old": "perform (.writeFile bridge env.bridgeScript (env.now t))",
"new": "perform (.writeFile file env.bridgeScript (env.now t))",
"edit": "the bridge is written over the script",
"claim": "files changed by a render",
"breaks": [
"C61"
]
},
{
"id": "N10",
"file": "Bifs",
"def": "objEntry",
"old": "|| key = c!\"params\" || recursive then objString x\n",
"new": "|| recursive then objString x\n",
"edit": "a text in params is not evaluated",
"claim": "what obj evaluates",
"breaks": [
"C64"
]
},
{
"id": "N11",
"file": "Bifs",
"def": "objEntry",
"old": "else if key = c!\"params\" || recursive then (objEntries true o)",
"new": "else if key = c!\"params\" || recursive then (objEntries false o)",
"edit": "params are evaluated only at the first level by name",
"claim": "what obj evaluates",
"breaks": [
"C64"
]
},
{
"id": "N12",
"file": "Bifs",
"def": "objCall",
"old": ".getD c!\"main\"",
"new": ".getD c!\"run\"",
"edit": "wrong default callback",
"claim": "the call of the script",
"breaks": [
"C64"
]
},
{
"id": "N13",
"file": "Bifs",
"def": "objCall",
"old": "then some s.sh.schema else none\n",
"new": "then none else some s.sh.schema\n",
"edit": "the schema is given to those who do not ask",
"claim": "the call of the script",
"breaks": [
"C64"
]
},
{
"id": "N14",
"file": "Bifs",
"def": "objCode",
"old": "if !isEmptyKey result c!\"data\" then c!\"{:data;{:flg; inline :}>>\" ++ env.jsonShow result",
"new": "if !isEmptyKey result c!\"data\" then c!\"{:code;{:flg; inline :}>>\" ++ env.jsonShow result",
"edit": "the result is evaluated as code",
"claim": "the result is data",
"breaks": [
"C64"
]
},
{
"id": "N15",
"file": "Bifs",
"def": "objCode",
"old": "some (pre ++ c!\"{:include;\" ++ t ++ c!\":}\" ++ code)",
"new": "some (pre ++ code ++ c!\"{:include;\" ++ t ++ c!\":}\")",
"edit": "the template comes after the code",
"claim": "what obj shows",
"breaks": [
"C64"
]
},
{
"id": "N16",
"file": "Bifs",
"def": "bifObj",
"old": "let engine := env.lower (((obj0.index c!\"engine\").asStr?).getD c!\"python\")\n    if engine \u2260 c!\"python\" \u2227 engine \u2260 c!\"php\" then",
"new": "let engine := env.lower (((obj0.index c!\"engine\").asStr?).getD c!\"php\")\n    if engine \u2260 c!\"python\" \u2227 engine \u2260 c!\"php\" then",
"edit": "the default engine is PHP",
"claim": "the call of the script",
"breaks": [
"C64"
]
},
{
"id": "N17",
"file": "Bifs",
"def": "objSchemaData",
"old": "let st := storageOf s name\n    (resolvePointer st.1 st.2).getD .null)",
"new": "let st := storageOf s name\n    (resolvePointer st.1 st.2).getD st.1)",
"edit": "all data given when the key is missing",
"claim": "the call of the script",
"breaks": [
"C64"
]
},
{
"id": "N18",
"file": "Bifs",
"def": "bifObj",
"old": "if !fileExists s file then bifError c!\"obj script not found\"\n      else match",
"new": "if fileExists s file then bifError c!\"obj script not found\"\n      else match",
"edit": "existing scripts are refused",
"claim": "the call of the script",
"breaks": [
"C64"
]
},
{
"id": "N19",
"file": "Bifs",
"def": "debugEnable",
"old": "if s.sh.debugFile.isEmpty then return false",
"new": "if s.sh.debugFile.isEmpty then return true",
"edit": "debug on without a debug file",
"claim": "debug only with a debug file",
"breaks": [
"C65"
]
},
{
"id": "N20",
"file": "Bifs",
"def": "debugEnable",
"old": "decide (d < s.sh.debugExpire * 1000000000)\n          | none => false",
"new": "decide (d < s.sh.debugExpire * 1000000000)\n          | none => true",
"edit": "a debug file from the future enables debug",
"claim": "debug only with a fresh debug file",
"breaks": [
"C65"
]
},
{
"id": "N21",
"file": "Bifs",
"def": "debugEnable",
"old": "decide (d < s.sh.debugExpire * 1000000000)",
"new": "decide (d > s.sh.debugExpire * 1000000000)",
"edit": "expired debug files enable debug",
"claim": "debug only with a fresh debug file",
"breaks": [
"C65"
]
},
{
"id": "N22",
"file": "Bifs",
"def": "debugEnable",
"old": "if !e.isFile then return false",
"new": "if e.isFile then return false",
"edit": "a directory enables debug",
"claim": "debug only with a regular file",
"breaks": [
"C65"
]
},
{
"id": "N23",
"file": "Bifs",
"def": "bifDebug",
"old": "else if !enabled then do\n    setOut []",
"new": "else if false then do\n    setOut []",
"edit": "debug always shows data",
"claim": "debug only with a fresh debug file",
"breaks": [
"C65"
]
},
{
"id": "N24",
"file": "Bifs",
"def": "bifDebug",
"old": "setOut (if enabled then unprintable else [])",
"new": "setOut (env.jsonPretty s.sh.schema)",
"edit": "!debug shows data",
"claim": "!debug shows no data",
"breaks": [
"C65"
]
},
{
"id": "N25",
"file": "Bifs",
"def": "resolveFilePath",
"old": "requireAllow s.b.code c!\"insecure file name\"\n    let p",
"new": "let p",
"edit": "variable file names need no allow",
"claim": "file names from data need an allow list",
"breaks": [
"C66"
]
},
{
"id": "N26",
"file": "Bifs",
"def": "bifInclude",
"old": "if !fileExists s s.b.filePath then\n    (if hasFlag s.b c!\"require\" then bifError c!\"file not found\" else .pure ())\n  else do\n    (match",
"new": "if !fileExists s s.b.filePath then\n    (if hasFlag s.b c!\"require\" then .pure () else bifError c!\"file not found\")\n  else do\n    (match",
"edit": "require inverted by include",
"claim": "missing files",
"breaks": [
"C67"
]
},
{
"id": "N27",
"file": "Bifs",
"def": "bifData",
"old": "(if hasFlag s.b c!\"require\" then bifError c!\"file not found\" else setOut [])",
"new": "(if hasFlag s.b c!\"require\" then bifError c!\"file not found\" else mergeJson env c!\"data\" dataPart c!\"{}\")",
"edit": "a missing data file is an empty document without data",
"claim": "missing files change nothing",
"breaks": [
"C67"
]
},
{
"id": "N28",
"file": "Bifs",
"def": "bifLocale",
"old": "(if hasFlag s.b c!\"require\" then bifError c!\"file not found\" else .pure ())\n    else do\n      let canon \u2190 canonUnwrap env s.b.filePath\n      if s.b.modNegate && s.inh.localeFiles",
"new": "(bifError c!\"file not found\")\n    else do\n      let canon \u2190 canonUnwrap env s.b.filePath\n      if s.b.modNegate && s.inh.localeFiles",
"edit": "a missing locale file is always an error",
"claim": "missing files",
"breaks": [
"C67"
]
},
{
"id": "N29",
"file": "Bifs",
"def": "bifInclude",
"old": "      | some d => setDir d\n",
"new": "      | some _ => .pure ()\n",
"edit": "include does not enter the directory of the file",
"claim": "# in included files",
"breaks": [
"C72"
]
},
{
"id": "N30",
"file": "Bifs",
"def": "bifInclude",
"old": "else if hasFlag s.b c!\"noparse\" then do\n        setCode raw\n        outCode\n      else do",
"new": "else if hasFlag s.b c!\"noparse\" then do\n        setCode raw\n        parseCode false\n        outCode\n      else do",
"edit": "noparse ignored by include",
"claim": "include noparse",
"breaks": [
"C72"
]
},
{
"id": "N31",
"file": "Bifs",
"def": "bifInclude",
"old": "          let x \u2190 childParse raw true\n          setOut x",
"new": "          let x \u2190 childParse raw false\n          setOut x",
"edit": "definitions of an included file are lost",
"claim": "include evaluates in its place",
"breaks": [
"C72",
"C77"
]
},
{
"id": "N32",
"file": "Bifs",
"def": "bifInclude",
"old": "if s.b.modNegate && s.inh.includeFiles.contains canon then setOut []",
"new": "if s.b.modNegate && s.inh.includeFiles.contains s.b.filePath then setOut []",
"edit": "the path as written is compared instead of the canonical one",
"claim": "!include",
"breaks": [
"C72"
]
},
{
"id": "N33",
"file": "Bifs",
"def": "bifLocale",
"old": "let text \u2190 (if !hasFlag s.b c!\"noparse\" && contains bifOpen raw",
"new": "let text \u2190 (if hasFlag s.b c!\"noparse\" && contains bifOpen raw",
"edit": "noparse inverted by locale",
"claim": "locale files",
"breaks": [
"C57"
]
},
{
"id": "N34",
"file": "Bifs",
"def": "bifData",
"old": "mergeJson env c!\"data\" dataPart s.b.code\n",
"new": "mergeJson env c!\"data\" id s.b.code\n",
"edit": "the whole inline document becomes data",
"claim": "data",
"breaks": [
"C54"
]
},
{
"id": "N35",
"file": "Bifs",
"def": "bifEval",
"old": "if xor (!s.b.params.isEmpty) s.b.modNegate then do",
"new": "if xor (!s.b.code.isEmpty) s.b.modNegate then do",
"edit": "eval decides by the code",
"claim": "eval",
"breaks": [
"C58"
]
},
{
"id": "N36",
"file": "Bifs",
"def": "bifEval",
"old": "setData c!\"__eval__\" s.b.params\n",
"new": "setData c!\"__eval__\" s.b.code\n",
"edit": "__eval__ holds the code",
"claim": "eval",
"breaks": [
"C58"
]
},
{
"id": "N37",
"file": "Bifs",
"def": "joinText",
"old": "  | .bool b => showBool b\n  | .null => c!\"null\"",
"new": "  | .bool b => showBool b\n  | .null => []",
"edit": "null elements are not printed",
"claim": "join",
"breaks": [
"C59"
]
},
{
"id": "N38",
"file": "Bifs",
"def": "argTruthy",
"old": "!(a = [] || a = c!\"false\" || a = c!\"0\")",
"new": "!(a = [] || a = c!\"0\")",
"edit": "false is true",
"claim": "join keys",
"breaks": [
"C59"
]
},
{
"id": "N39",
"file": "Bifs",
"def": "bifFlg",
"old": "(replaceAll c!\" \" c!\"|\" (c!\" \" ++ s.b.code ++ c!\" \"))",
"new": "(c!\"|\" ++ s.b.code ++ c!\"|\")",
"edit": "two flags are one",
"claim": "flags of code",
"breaks": [
"C70"
]
},
{
"id": "N40",
"file": "Bifs",
"def": "bifCode",
"old": "let c1 := if hasFlag s.b c!\"encode_tags\" then reescape false s.b.code else s.b.code",
"new": "let c1 := if hasFlag s.b c!\"encode_tags\" then reescape true s.b.code else s.b.code",
"edit": "encode_tags encodes braces",
"claim": "encode_tags evaluates BIFs",
"breaks": [
"C70"
]
},
{
"id": "N41",
"file": "Bifs",
"def": "bifCode",
"old": "(if hasFlag s.b c!\"encode_tags_after\" then do",
"new": "(if hasFlag s.b c!\"encode_tags\" then do",
"edit": "encode_tags_after ignored",
"claim": "encode_tags_after",
"breaks": [
"C70"
]
},
{
"id": "N42",
"file": "Bifs",
"def": "bifCode",
"old": "let c2 := if hasFlag s.b c!\"encode_bifs\" then sanitizeBifs c1 else c1",
"new": "let c2 := if hasFlag s.b c!\"encode_bifs\" then reescape false c1 else c1",
"edit": "encode_bifs encodes tags",
"claim": "encode_bifs",
"breaks": [
"C70"
]
},
{
"id": "N43",
"file": "Bifs",
"def": "bifParam",
"old": "if s.inh.alias = c!\"code\" then do\n",
"new": "if true then do\n",
"edit": "parameters can be set anywhere",
"claim": "where parameters are set",
"breaks": [
"C71"
]
},
{
"id": "N44",
"file": "Bifs",
"def": "bifSnippet",
"old": "if contains c!\"snippet\" s.inh.currentFile || s.inh.alias = c!\"snippet\" then do",
"new": "if true then do",
"edit": "snippets can be set anywhere",
"claim": "where snippets are set",
"breaks": [
"C71"
]
},
{
"id": "N45",
"file": "Bifs",
"def": "bifDeclare",
"old": "if contains c!\"snippet\" s.inh.currentFile then do\n    perform .createBlockSchema",
"new": "if !contains c!\"snippet\" s.inh.currentFile then do\n    perform .createBlockSchema",
"edit": "declare only outside snippet files",
"claim": "where declarations are set",
"breaks": [
"C71"
]
},
{
"id": "N46",
"file": "Bifs",
"def": "bifSnippet",
"old": "(if hasFlag s.b c!\"static\" then do",
"new": "(if !hasFlag s.b c!\"static\" then do",
"edit": "static inverted",
"claim": "static snippets",
"breaks": [
"C71"
]
},
{
"id": "N47",
"file": "Bifs",
"def": "bifSnippet",
"old": "(if setDir'.isEmpty then .pure () else perform (.setCurrentDir setDir'))",
"new": ".pure ()",
"edit": "snippets are evaluated in the directory of their use",
"claim": "# in snippets",
"breaks": [
"C72"
]
},
{
"id": "N48",
"file": "Bifs",
"def": "bifSnippet",
"old": "childParse body (contains c!\"{:snip\" body)",
"new": "childParse body true",
"edit": "definitions of a played snippet stay",
"claim": "the meaning of snippets",
"breaks": [
"C77"
]
},
{
"id": "N49",
"file": "Bifs",
"def": "bifHash",
"old": "else setOut (env.md5 s.b.code)",
"new": "else setOut (env.sha256 s.b.code)",
"edit": "wrong hash",
"claim": "hash",
"breaks": [
"C73"
]
},
{
"id": "N50",
"file": "Bifs",
"def": "bifHash",
"old": "setOut (env.randHash t)\n",
"new": "setOut (env.md5 [])\n",
"edit": "hash without text is constant",
"claim": "hash",
"breaks": [
"C73"
]
},
{
"id": "N51",
"file": "Bifs",
"def": "bifNeutral",
"old": "setOut s.raw\n\n/-- `parse_bif_param`",
"new": "setOut s.b.src\n\n/-- `parse_bif_param`",
"edit": "neutral prints only its inside",
"claim": "neutral",
"breaks": [
"C73"
]
},
{
"id": "N52",
"file": "Bifs",
"def": "bifCount",
"old": "  bifError c!\"Bif 'count' is deprecated\"",
"new": "  .pure ()",
"edit": "count works",
"claim": "count is always an error",
"breaks": [
"C73"
]
},
{
"id": "N53",
"file": "Bifs",
"def": "bifDate",
"old": "if s.b.code.isEmpty then setOut (showNat (env.now t))",
"new": "if s.b.code.isEmpty then setOut (showNat t)",
"edit": "date prints the tick",
"claim": "date",
"breaks": [
"C73"
]
},
{
"id": "N54",
"file": "Bifs",
"def": "bifLang",
"old": "setOut s.sh.lang\n",
"new": "setOut c!\"en\"\n",
"edit": "lang always prints en",
"claim": "lang",
"breaks": [
"C48"
]
},
{
"id": "N55",
"file": "Bifs",
"def": "fetchDiv",
"old": "else if event = c!\"visible\" then divFetch c!\"visible\"",
"new": "else if event = c!\"visible\" then divFetch c!\"auto\"",
"edit": "visible is auto",
"claim": "fetch",
"breaks": [
"C74"
]
},
{
"id": "N56",
"file": "Bifs",
"def": "bifFetch",
"old": "(replaceAll c!\"{class}\" (argOpt args 4)\n          (replaceAll c!\"{wrap}\" (argOpt args 3)",
"new": "(replaceAll c!\"{class}\" (argOpt args 3)\n          (replaceAll c!\"{wrap}\" (argOpt args 4)",
"edit": "class and wrapper swapped",
"claim": "fetch",
"breaks": [
"C74"
]
},
{
"id": "N57",
"file": "Bifs",
"def": "divFetchForm",
"old": "method=\\\"POST\\\"",
"new": "method=\\\"GET\\\"",
"edit": "forms are sent by GET",
"claim": "fetch",
"breaks": [
"C74"
]
},
{
"id": "N58",
"file": "Bifs",
"def": "cacheOff",
"old": "sh.cacheDisable || (hasPost",
"new": "(hasPost",
"edit": "cache_disable ignored",
"claim": "cache_disable",
"breaks": [
"C75"
]
},
{
"id": "N59",
"file": "Bifs",
"def": "bifCache",
"old": "if s.inh.inCache then setOut s.raw\n",
"new": "if s.inh.inCache then setOut s.b.code\n",
"edit": "!cache stores its code without the mark",
"claim": "!cache",
"breaks": [
"C75"
]
},
{
"id": "N60",
"file": "Bifs",
"def": "cacheOff",
"old": "(hasCookies && !sh.cacheOnCookies)",
"new": "(hasCookies && sh.cacheOnCookies)",
"edit": "wrong condition for cookies",
"claim": "the cache for requests with cookies",
"breaks": [
"C75"
]
},
{
"id": "N61",
"file": "Bifs",
"def": "bifTrans",
"old": "let trans := getTrans env s s.b.src\n",
"new": "let trans := getTrans env s s.b.src\n  setData c!\"__trans__\" trans\n",
"edit": "trans writes data",
"claim": "trans changes nothing",
"breaks": [
"C76"
]
},
{
"id": "N62",
"file": "Bifs",
"def": "bifCoalesce",
"old": "  perform (.setLastCoalesce false)\n",
"new": "  perform (.setLastCoalesce false)\n  perform (.setExit false)\n",
"edit": "coalesce cancels an exit",
"claim": "coalesce changes no exit",
"breaks": [
"C76"
]
},
{
"id": "N63",
"file": "Bifs",
"def": "bifHash",
"old": "modB (fun b => { b with code := trim b.src })\n  let s \u2190 getSt\n  (if contains bifOpen s.b.src then do\n    let x \u2190 childParse s.b.code s.b.modScope\n    setCode x\n  else setCode (trim s.b.code))\n",
"new": "modB (fun b => { b with code := trim b.src })\n  let s \u2190 getSt\n  perform (.writeFile c!\"/tmp/hash\" s.b.code 0)\n  (if contains bifOpen s.b.src then do\n    let x \u2190 childParse s.b.code s.b.modScope\n    setCode x\n  else setCode (trim s.b.code))\n",
"edit": "hash writes a file",
"claim": "hash writes nothing",
"breaks": [
"C61",
"C76"
]
},
{
"id": "N64",
"file": "Bifs",
"def": "bifEach",
"old": "perform (.setData keyName restoreKey)\n        perform",
"new": "perform",
"edit": "the key variable is not restored",
"claim": "variables after a render",
"breaks": [
"C77",
"C79"
]
},
{
"id": "N65",
"file": "Bifs",
"def": "eachItems",
"old": "| .obj o => o\n",
"new": "| .obj o => o.reverse\n",
"edit": "objects are walked backwards",
"claim": "the meaning of each",
"breaks": [
"C77",
"C36"
]
},
{
"id": "N66",
"file": "Bifs",
"def": "forIter",
"old": "setData varName val\n",
"new": "setData varName varName\n",
"edit": "the variable of for holds its name",
"claim": "the meaning of for",
"breaks": [
"C77"
]
},
{
"id": "N67",
"file": "Bifs",
"def": "bifParam",
"old": "(.setIndir c!\"params\" s.b.params (.str s.b.code))\n      setOut []",
"new": "(.setIndir c!\"params\" s.b.code (.str s.b.params))\n      setOut []",
"edit": "parameter and value swapped",
"claim": "the meaning of param",
"breaks": [
"C77"
]
},
{
"id": "N68",
"file": "Bifs",
"def": "bifTrans",
"old": "(if s.b.modNegate then [] else s.b.src) else trans)",
"new": "(if s.b.modNegate then [] else s.b.src) else s.b.src)",
"edit": "nothing is translated",
"claim": "the meaning of trans",
"breaks": [
"C77"
]
},
{
"id": "N69",
"file": "Bifs",
"def": "bifVar",
"old": "if (s.b.modFilter || s.sh.filterAll) && !s.b.modNegate then",
"new": "if s.b.modFilter && s.sh.filterAll && !s.b.modNegate then",
"edit": "filters need both the modifier and filter_all",
"claim": "filtered templates",
"breaks": [
"C78"
]
},
{
"id": "N70",
"file": "Bifs",
"def": "bifVar",
"old": "if !startsWith c!\"CONTEXT->\" varName then reescape true out0 else out0",
"new": "if !startsWith c!\"C\" varName then reescape true out0 else out0",
"edit": "every variable that begins with C is exempt",
"claim": "filtered templates",
"breaks": [
"C78",
"C25"
]
},
{
"id": "N71",
"file": "Bifs",
"def": "storageOf",
"old": "| none => (dataOf s, name)",
"new": "| none => ((s.sh.getIndir s.inh.indir).index c!\"data\", name)",
"edit": "tests read local data",
"claim": "the meaning of tests",
"breaks": [
"C77",
"C80"
]
},
{
"id": "N72",
"file": "Bifs",
"def": "bifFilled",
"old": "!isEmptyKey v k)",
"new": "!isEmptyKey v k && isArrayKey v k)",
"edit": "filled only for arrays",
"claim": "the meaning of filled",
"breaks": [
"C77"
]
},
{
"id": "N73",
"file": "Bifs",
"def": "bifSame",
"old": "fun a b => a == b",
"new": "fun a b => startsWith a b",
"edit": "same tests a prefix",
"claim": "the meaning of same",
"breaks": [
"C33",
"C77"
]
},
{
"id": "N74",
"file": "Template",
"def": "Shared.new",
"old": "cacheOnPost := isBoolKey env.f64 cfg c!\"cache_on_post\"",
"new": "cacheOnPost := isBoolKey env.f64 cfg c!\"cache_on_get\"",
"edit": "wrong configuration key",
"claim": "options",
"breaks": [
"C82"
]
},
{
"id": "N75",
"file": "Template",
"def": "Shared.new",
"old": "cacheDir := if cacheDir.isEmpty then env.tempDir else cacheDir",
"new": "cacheDir := cacheDir",
"edit": "no default cache directory",
"claim": "options",
"breaks": [
"C82"
]
},
{
"id": "N76",
"file": "Template",
"def": "Shared.new",
"old": "disableJs := isBoolKey env.f64 cfg c!\"disable_js\"",
"new": "disableJs := (cfg.index c!\"disable_js\").asBool?.getD false",
"edit": "only true disables the script",
"claim": "options",
"breaks": [
"C82"
]
},
{
"id": "N77",
"file": "Template",
"def": "Shared.new",
"old": "debugFile := getFromKey env.f64 cfg c!\"debug_file\"",
"new": "debugFile := []",
"edit": "debug_file ignored",
"claim": "options",
"breaks": [
"C82",
"C65"
]
},
{
"id": "N78",
"file": "Template",
"def": "initSharedOnce",
"old": "schema := schema2\n            indir := fun x => if x = p.2.indir then some (schema1.index c!\"inherit\") else none },\n          { p.2 with\n            currentFile := filePath\n            currentDir := if filePath.isEmpty then p.1.workingDir else (env.parent filePath).getD p.2.currentDir })\n\n/-- One pass",
"new": "schema := schema1\n            indir := fun x => if x = p.2.indir then some (schema1.index c!\"inherit\") else none },\n          { p.2 with\n            currentFile := filePath\n            currentDir := if filePath.isEmpty then p.1.workingDir else (env.parent filePath).getD p.2.currentDir })\n\n/-- One pass",
"edit": "render_once does not filter CONTEXT",
"claim": "render_once equals render",
"breaks": [
"C30"
]
},
{
"id": "N79",
"file": "Template",
"def": "cacheLoop",
"old": "match pass env sh inh out c!\"!cache\" with",
"new": "match pass env sh inh out [] with",
"edit": "the second pass evaluates every BIF",
"claim": "second pass",
"breaks": [
"C120"
]
},
{
"id": "N80",
"file": "Template",
"def": "endsRender",
"old": "(applyMoveto sh.schema out).map (fun o => finalOut sh (replacements o))",
"new": "(applyMoveto sh.schema (replacements out)).map (fun o => finalOut sh o)",
"edit": "marks in moved code are kept",
"claim": "moveto and marks",
"breaks": [
"C37"
]
},
{
"id": "N81",
"file": "Template",
"def": "finalOut",
"old": "strLe sh.statusCode c!\"599\" then",
"new": "strLe sh.statusCode c!\"499\" then",
"edit": "server errors keep the content",
"claim": "errors replace the content",
"breaks": [
"C40"
]
},
{
"id": "N82",
"file": "Template",
"def": "Tpl.mergeSchemaPath",
"old": "| none => .err c!\"Is not a valid JSON file\"\n    | some v => t.merge v",
"new": "| none => .ok t\n    | some v => t.merge v",
"edit": "invalid schema files are ignored",
"claim": "schema of a template",
"breaks": [
"C60"
]
},
{
"id": "N83",
"file": "Template",
"def": "Tpl.fromFileMsgpack",
"old": "if noBytes then Tpl.fromFileValue env w path (.obj [])",
"new": "if noBytes then Tpl.fromFileValue env w path .null",
"edit": "no bytes give a null schema",
"claim": "schema of a template",
"breaks": [
"C60"
]
},
{
"id": "N84",
"file": "Template",
"def": "Tpl.setSrcPath",
"old": "| some raw => ({ t with filePath := path, raw := raw }, none)",
"new": "| some raw => ({ t with raw := raw }, none)",
"edit": "the file path is not remembered",
"claim": "# in templates",
"breaks": [
"C72"
]
},
{
"id": "N85",
"file": "Interp",
"def": "bifFinish",
"old": ".ok (trim (if s.b.modUpline then",
"new": ".ok ((if s.b.modUpline then",
"edit": "BIF output is not trimmed",
"claim": "output of a BIF",
"breaks": [
"C69"
]
},
{
"id": "N86",
"file": "Interp",
"def": "bifFinish",
"old": "{ s.inh with lastBifOut := ne, lastCoalesceOut := ne }",
"new": "{ s.inh with lastBifOut := ne }",
"edit": "coalesce never stops",
"claim": "the meaning of coalesce",
"breaks": [
"C35",
"C77"
]
},
{
"id": "N87",
"file": "Interp",
"def": "blocksGo",
"old": "if sh.exit then .ok out sh inh",
"new": "if sh.exit then .ok (out ++ src.drop prevEnd) sh inh",
"edit": "the text after an exit is printed",
"claim": "exit",
"breaks": [
"C23"
]
},
{
"id": "N88",
"file": "Interp",
"def": "blocksGo",
"old": "| [], sh, inh => .ok (trim (out ++ src.drop prevEnd)) sh inh",
"new": "| [], sh, inh => .ok (trim out) sh inh",
"edit": "the text after the last BIF is lost",
"claim": "text",
"breaks": [
"C28",
"C77"
]
},
{
"id": "N89",
"file": "Interp",
"def": "bifParse",
"old": "else match setModifiers { BifS.new with src := src } name with",
"new": "else match setModifiers { BifS.new with src := src, modFilter := inh.inOnly } name with",
"edit": "siblings are filtered",
"claim": "the meaning of variables",
"breaks": [
"C68"
]
},
{
"id": "N90",
"file": "Interp",
"def": "setModifiers",
"old": "else if c = '!' then setModifiers { b with modNegate := true } r",
"new": "else if c = '!' then setModifiers { b with modNegate := !b.modNegate } r",
"edit": "!! cancels",
"claim": "the meaning of modifiers (twice the same modifier)",
"breaks": [
"C77"
]
},
{
"id": "N91",
"file": "Php",
"def": "field",
"old": "  | some .null => d\n",
"new": "",
"edit": "null fields are not defaulted",
"claim": "what a PHP function is called with",
"breaks": [
"C83"
]
},
{
"id": "N92",
"file": "Php",
"def": "globalsOf",
"old": "\u27e8field p c!\"schema\" .null, field p c!\"schema_data\" .null,",
"new": "\u27e8field p c!\"schema_data\" .null, field p c!\"schema\" .null,",
"edit": "schema and data swapped",
"claim": "what a PHP function sees",
"breaks": [
"C83"
]
},
{
"id": "N93",
"file": "Php",
"def": "bridgeCall",
"old": ".throws o => o ++ bridgeError P c!\"callback execution failed\"",
"new": ".throws o => o",
"edit": "exceptions are not reported",
"claim": "errors of PHP",
"breaks": [
"C83"
]
},
{
"id": "N94",
"file": "Php",
"def": "bridgeRun",
"old": "if file.isEmpty || !P.isFile file then",
"new": "if file.isEmpty then",
"edit": "missing scripts are loaded",
"claim": "errors of PHP",
"breaks": [
"C83"
]
},
{
"id": "N95",
"file": "Php",
"def": "bridgeCall",
"old": "(field p c!\"params\" (.arr [])) (globalsOf p)",
"new": "(field p c!\"param\" (.arr [])) (globalsOf p)",
"edit": "the parameters are not passed",
"claim": "what a PHP function is called with",
"breaks": [
"C83"
]
},
{
"id": "N96",
"file": "FastCgi",
"def": "payload",
"old": "(c!\"callback\", .str c.callback)",
"new": "(c!\"callback\", .str c.file)",
"edit": "the callback is the file",
"claim": "the function called",
"breaks": [
"C83"
]
},
{
"id": "N97",
"file": "Venv",
"def": "setupVenv",
"old": "({ vars with home := some home, path := some path }, .ok ())",
"new": "({ vars with home := some path, path := some home }, .ok ())",
"edit": "prefix and path swapped",
"claim": "environment of the first object",
"breaks": [
"C84"
]
},
{
"id": "N98",
"file": "Venv",
"def": "startUp",
"old": "  | some I => I\n",
"new": "  | some I => { I with path := H.startPath vars ++ I.path }\n",
"edit": "a later environment is added to the path (a fix)",
"claim": "C84_refuted describes the code",
"breaks": [
"C84"
]
},
{
"id": "N99",
"file": "Venv",
"def": "setupVenv",
"old": "if !H.exists_ exe then",
"new": "if false then",
"edit": "an environment without Python is accepted",
"claim": "missing environments",
"breaks": [
"C84"
]
},
{
"id": "O01",
"file": "Interp",
"def": "errorLine",
"old": "++ c!\") \" ++ e.msg ++ c!\" file~: (\"",
"new": "++ c!\") \" ++ e.msg ++ c!\" file: (\"",
"edit": "file: without ~",
"claim": "format of an error",
"breaks": [
"C87"
]
},
{
"id": "O02",
"file": "Interp",
"def": "bifParse",
"old": ".ok [] (pushError sh (oneLine (c!\"The delimiter was not found: \" ++ raw))) inh",
"new": ".ok [] (pushError sh (c!\"The delimiter was not found: \" ++ raw)) inh",
"edit": "line breaks kept in delimiter errors",
"claim": "every error is one line",
"breaks": [
"C87"
]
},
{
"id": "O03",
"file": "Interp",
"def": "bifParse",
"old": ".ok [] (pushError sh (oneLine (c!\"The delimiter was not found: \" ++ raw))) inh",
"new": ".ok [] (pushError (pushError sh (oneLine raw)) (oneLine (c!\"The delimiter was not found: \" ++ raw))) inh",
"edit": "the delimiter error is recorded twice",
"claim": "at most one error for each BIF",
"breaks": [
"C87",
"C88"
]
},
{
"id": "O04",
"file": "Bifs",
"def": "bifUnknown",
"old": "  setAlias c!\"unknown\"\n  bifError",
"new": "  bifError",
"edit": "unknown BIFs keep their name in errors",
"claim": "the name in an error (Called allows it)",
"breaks": [
"C87"
]
},
{
"id": "O05",
"file": "State",
"def": "pushError",
"old": "(.arr (a ++ [.str line]))",
"new": "(.arr (.str line :: a))",
"edit": "errors are put first",
"claim": "the list of errors",
"breaks": [
"C22"
]
},
{
"id": "O06",
"file": "State",
"def": "oneLine",
"old": "if c = '\\n' || c = '\\r' then ' ' else c",
"new": "if c = '\\n' then ' ' else c",
"edit": "carriage returns stay",
"claim": "every error is one line",
"breaks": [
"C87"
]
},
{
"id": "O07",
"file": "Bytes",
"def": "bifLoop",
"old": "if prev.toNat = '{'.toNat then bifLoop src f (nested + 1) (delim + 1)",
"new": "if prev.toNat = '{'.toNat then bifLoop src f (nested + 1) (delim + 2)",
"edit": "two bytes are skipped after {:",
"claim": "byte positions",
"breaks": [
"C86"
]
},
{
"id": "O08",
"file": "Bytes",
"def": "commentLoop",
"old": "else if prev.toNat = '*'.toNat \u2227 next.toNat = '}'.toNat then .ok (some (delim + 2))",
"new": "else if prev.toNat = '*'.toNat \u2227 next.toNat = '}'.toNat then .ok (some (delim + 3))",
"edit": "a comment takes one byte more",
"claim": "byte positions",
"breaks": [
"C86"
]
},
{
"id": "O09",
"file": "Bytes",
"def": "isStar",
"old": "if i < src.length then do",
"new": "if i \u2264 src.length then do",
"edit": "reads after the end",
"claim": "no panic on byte positions",
"breaks": [
"C86"
]
},
{
"id": "O10",
"file": "Bytes",
"def": "gapsLoop",
"old": ".ok ((findB (utf8 c!\":}\") x).map (fun p => prevEnd + p))",
"new": ".ok (findB (utf8 c!\":}\") x)",
"edit": "the reported position is relative",
"claim": "the reported position",
"breaks": [
"C86"
]
},
{
"id": "O11",
"file": "Bytes",
"def": "codeLoop",
"old": "if i + 1 < src.length then",
"new": "if i < src.length then",
"edit": "reads after the end",
"claim": "no panic on byte positions",
"breaks": [
"C86"
]
},
{
"id": "O12",
"file": "Bytes",
"def": "splitCode",
"old": "let b \u2190 sliceFrom src (p + 2)",
"new": "let b \u2190 sliceFrom src (p + 3)",
"edit": "one byte of the code is lost",
"claim": "splitting code",
"breaks": [
"C86"
]
},
{
"id": "O13",
"file": "Bytes",
"def": "modLoop",
"old": "let start \u2190 sliceB name index (index + 1)",
"new": "let start \u2190 pure ((name.drop index).take 1)",
"edit": "no panic on a multi-byte name (a fix)",
"claim": "what panics",
"breaks": [
"C86"
]
},
{
"id": "O14",
"file": "Bytes",
"def": "pointerLoop",
"old": "else pointerLoop key f v (i + 2) (i + 2)",
"new": "else pointerLoop key f v (i + 1) (i + 1)",
"edit": "-> counts one byte",
"claim": "paths",
"breaks": [
"C86"
]
},
{
"id": "O15",
"file": "Bytes",
"def": "parseUsizeB",
"old": "if n < 2 ^ 64 then",
"new": "if n \u2264 2 ^ 64 then",
"edit": "one index too many",
"claim": "paths",
"breaks": [
"C86"
]
},
{
"id": "O16",
"file": "Bytes",
"def": "findTagPosition",
"old": ".ok (some (p + q + 1))",
"new": ".ok (some (p + q))",
"edit": "moved text is placed before >",
"claim": "moveto",
"breaks": [
"C86"
]
},
{
"id": "O17",
"file": "Bytes",
"def": "extractHttpBody",
"old": "sliceFrom stdout (p + 4)",
"new": "sliceFrom stdout (p + 3)",
"edit": "the body keeps a line break",
"claim": "HTTP body",
"breaks": [
"C86"
]
},
{
"id": "O18",
"file": "Bytes",
"def": "rcsLoop",
"old": "rcLoop src (src.length + 1) nested (openPos + 3)",
"new": "rcLoop src (src.length + 1) nested (openPos + 2)",
"edit": "the star is read twice",
"claim": "comments",
"breaks": [
"C86"
]
},
{
"id": "O19",
"file": "Utils",
"def": "scanRC",
"old": "if 0 < nested then scanRC c (nested - 1)",
"new": "if 1 < nested then scanRC c (nested - 1)",
"edit": "one nested comment is not closed",
"claim": "comments are removed exactly",
"breaks": [
"C16"
]
},
{
"id": "O20",
"file": "Utils",
"def": "scanRCs",
"old": "| .unclosed n e => scanRCs n e (pos + 1) (e - pos - 1) r",
"new": "| .unclosed n e => scanRCs 0 e (pos + 1) (e - pos - 1) r",
"edit": "an open comment forgets its nesting",
"claim": "comments are removed exactly",
"breaks": [
"C16",
"C86"
]
},
{
"id": "O21",
"file": "Bifs",
"def": "containsAllow",
"old": "if contains c!\"{:allow;\" source || contains c!\"{:!allow;\" source then some true",
"new": "if contains c!\"{:allow;\" source then some true",
"edit": "!allow is not accepted",
"claim": "what is allowed",
"breaks": [
"C27"
]
},
{
"id": "O22",
"file": "Bifs",
"def": "containsAllow",
"old": "!(startsWith c!\"{:;\" t && endsWith bifClose t)",
"new": "!(startsWith c!\"{:;\" t || endsWith bifClose t)",
"edit": "stricter",
"claim": "what is allowed",
"breaks": [
"C27",
"C66"
]
},
{
"id": "O24",
"file": "Bifs",
"def": "resolveFilePath",
"old": "    requireAllow s.b.code c!\"insecure file name\"\n",
"new": "",
"edit": "variables in file names",
"claim": "insecure file names",
"breaks": [
"C66",
"C27"
]
},
{
"id": "O25",
"file": "Bifs",
"def": "requireAllow",
"old": "| none => .panic .bounds\n  | some true => .pure ()",
"new": "| none => .pure ()\n  | some true => .pure ()",
"edit": "comments never panic",
"claim": "which BIF panics",
"breaks": [
"C43"
]
},
{
"id": "O26",
"file": "Bifs",
"def": "joinValue",
"old": "joinStr sep (a.map (fun v => (v.asStr?).getD []))",
"new": "joinStr sep (a.map (fun v => joinText env v))",
"edit": "numbers of arrays are joined (a fix)",
"claim": "join",
"breaks": [
"C59"
]
},
{
"id": "O27",
"file": "Bifs",
"def": "joinValue",
"old": "(List.range a.length).map showNat",
"new": "(List.range a.length).map (fun i => showNat (i + 1))",
"edit": "keys from 1",
"claim": "join",
"breaks": [
"C59"
]
},
{
"id": "O28",
"file": "Bifs",
"def": "bifJoin",
"old": "(localDataOf s).pointer (replaceAll c!\"/local::\" c!\"/\" name)",
"new": "(dataOf s).pointer (replaceAll c!\"/local::\" c!\"/\" name)",
"edit": "local:: reads global data",
"claim": "join",
"breaks": [
"C59"
]
},
{
"id": "O29",
"file": "Bifs",
"def": "bifSnippet",
"old": "if contains c!\"snippet\" s.inh.currentFile || s.inh.alias = c!\"snippet\" then do",
"new": "if contains c!\"snippet\" s.inh.currentFile then do",
"edit": "no nested definitions",
"claim": "where snippets are set",
"breaks": [
"C71"
]
},
{
"id": "O30",
"file": "Bifs",
"def": "bifSnippet",
"old": "let x \u2190 childParse body (contains c!\"{:snip\" body)",
"new": "let x \u2190 childParse body false",
"edit": "the scope of a snippet",
"claim": "what a snippet leaves",
"breaks": [
"C71",
"C72",
"C24"
]
},
{
"id": "O31",
"file": "Bifs",
"def": "bifDate",
"old": "match env.utcFormat t s.b.src with",
"new": "match env.utcFormat t s.b.code with",
"edit": "the format is the evaluated code (a fix)",
"claim": "date",
"breaks": [
"C73"
]
},
{
"id": "O32",
"file": "Bifs",
"def": "bifSum",
"old": "env.f64.add x y",
"new": "env.f64.add x x",
"edit": "x is added twice",
"claim": "sum",
"breaks": [
"C48"
]
},
{
"id": "O33",
"file": "Bifs",
"def": "bifEach",
"old": "c!\"arguments 'key' not found\"",
"new": "c!\"arguments 'value' not found\"",
"edit": "wrong message",
"claim": "the message (still one of each)",
"breaks": [
"C36"
]
},
{
"id": "O34",
"file": "Bifs",
"def": "bifRedirect",
"old": "denyFlags\n  parseCode false\n  let s \u2190 getSt\n  match redirectPlan",
"new": "parseCode false\n  let s \u2190 getSt\n  match redirectPlan",
"edit": "flags are ignored",
"claim": "flags",
"breaks": [
"C106"
]
},
{
"id": "O35",
"file": "Bifs",
"def": "bifLocale",
"old": "    bifError c!\"flags not allowed\"\n",
"new": "    bifError c!\"modifiers not allowed\"\n",
"edit": "wrong message",
"claim": "messages",
"breaks": [
"C89"
]
},
{
"id": "O36",
"file": "Bifs",
"def": "bifCount",
"old": "c!\"Bif 'count' is deprecated\"",
"new": "c!\"count is deprecated\"",
"edit": "wrong message",
"claim": "messages",
"breaks": [
"C89"
]
},
{
"id": "O37",
"file": "Bifs",
"def": "bifUnknown",
"old": "bifError c!\"unknown bif\"",
"new": "bifError c!\"not found\"",
"edit": "wrong message",
"claim": "messages",
"breaks": [
"C89",
"C42"
]
},
{
"id": "O38",
"file": "Bifs",
"def": "redirectPlan",
"old": ".error c!\"status code not allowed\"",
"new": ".error c!\"modifier not allowed!\"",
"edit": "wrong message",
"claim": "messages",
"breaks": [
"C89",
"C41"
]
},
{
"id": "O39",
"file": "Bytes",
"def": "keptLoop",
"old": "let y \u2190 keptLoop src e r",
"new": "let y \u2190 keptLoop src s r",
"edit": "comments are kept",
"claim": "comments",
"breaks": [
"C86"
]
},
{
"id": "O40",
"file": "Bytes",
"def": "stepB",
"old": "| .arr a => (parseUsizeB part).bind (fun i => a[i]?)",
"new": "| .arr a => (parseUsizeB part).bind (fun i => a[i + 1]?)",
"edit": "arrays from 1",
"claim": "paths",
"breaks": [
"C86"
]
},
{
"id": "Q01",
"file": "Bifs",
"def": "bifHash",
"old": "  else setOut (env.md5 s.b.code)\n\n/-- `parse_bif_include`",
"new": "  else setOut (env.md5 (s.b.code ++ showNat (env.now s.sh.w.tick)))\n\n/-- `parse_bif_include`",
"edit": "the hash depends on the time",
"claim": "what a render depends on",
"breaks": [
"C90"
]
},
{
"id": "Q02",
"file": "Bifs",
"def": "bifInclude",
"old": "      let raw := (readFile s s.b.filePath).getD []\n      if hasFlag s.b c!\"safe\" then do",
"new": "      let raw := (readFile s canon).getD []\n      if hasFlag s.b c!\"safe\" then do",
"edit": "the resolved name is read",
"claim": "an included file is the one named",
"breaks": [
"C52",
"C91"
]
},
{
"id": "Q03",
"file": "Bifs",
"def": "bifInclude",
"old": "    (if hasFlag s.b c!\"require\" then bifError c!\"file not found\" else .pure ())\n  else do\n    (match env.parent s.b.filePath with\n      | some d => setDir d\n      | none => .pure ())\n    let canon \u2190 canonUnwrap env s.b.filePath\n    if s.b.modNegate && s.inh.includeFiles",
"new": "    (if hasFlag s.b c!\"require\" && !fileExists s c!\"/default\" then bifError c!\"file not found\" else .pure ())\n  else do\n    (match env.parent s.b.filePath with\n      | some d => setDir d\n      | none => .pure ())\n    let canon \u2190 canonUnwrap env s.b.filePath\n    if s.b.modNegate && s.inh.includeFiles",
"edit": "looks at another file",
"claim": "only named files matter",
"breaks": [
"C91"
]
},
{
"id": "Q04",
"file": "Prog",
"def": "handleUnmatched",
"old": "    statusCode := c!\"500\"\n",
"new": "    statusCode := c!\"400\"\n",
"edit": "status 400",
"claim": "unmatched blocks are a 500",
"breaks": [
"C92",
"C29"
]
},
{
"id": "Q05",
"file": "Bifs",
"def": "bifUnknown",
"old": "  setAlias c!\"unknown\"\n  bifError",
"new": "  setAlias c!\"unknown\"\n  perform (.setStatus c!\"404\" [])\n  bifError",
"edit": "unknown BIFs set the status",
"claim": "who sets the status",
"breaks": [
"C92",
"C42"
]
},
{
"id": "Q06",
"file": "Bifs",
"def": "cacheLookup",
"old": "        cacheParse restore setOut\n        bifError",
"new": "        cacheParse restore setOut\n        perform (.setExit true)\n        bifError",
"edit": "an unreadable entry stops the page",
"claim": "who stops a render",
"breaks": [
"C92"
]
},
{
"id": "Q07",
"file": "Bifs",
"def": "bifMoveto",
"old": "    (.obj [(s.b.params, .str s.b.code)]))\n",
"new": "    (.obj [(s.b.params, .str s.b.code)]))\n  perform (.setData c!\"moved\" s.b.params)\n",
"edit": "moveto writes the data",
"claim": "who writes data",
"breaks": [
"C92",
"C37"
]
},
{
"id": "Q08",
"file": "Bifs",
"def": "bifInclude",
"old": "      else if hasFlag s.b c!\"noparse\" then do\n        setCode raw\n        outCode\n      else do\n        perform (.pushFile .incl canon)",
"new": "      else if hasFlag s.b c!\"noparse\" then do\n        perform (.writeFile canon raw 0)\n        setCode raw\n        outCode\n      else do\n        perform (.pushFile .incl canon)",
"edit": "noparse touches the file",
"claim": "who writes files",
"breaks": [
"C92"
]
},
{
"id": "Q09",
"file": "Bifs",
"def": "bifCache",
"old": "      perform (.setInCache restore)\n      let expires",
"new": "      let expires",
"edit": "in_cache is not restored after the arguments",
"claim": "being in a cached block ends with it",
"breaks": [
"C75"
]
},
{
"id": "Q10",
"file": "Bifs",
"def": "cacheParse",
"old": "    perform (.setInCache restore)\n  else .pure ()",
"new": "    perform (.setInCache false)\n  else .pure ()",
"edit": "the outer cached block is forgotten",
"claim": "being in a cached block ends with it",
"breaks": [
"C75"
]
},
{
"id": "Q11",
"file": "Bifs",
"def": "bifExit",
"old": "if s.b.params.isEmpty then c!\"200\" else s.b.params",
"new": "if s.b.params.isEmpty then c!\"204\" else s.b.params",
"edit": "default status 204",
"claim": "exit without a status",
"breaks": [
"C23"
]
},
{
"id": "Q12",
"file": "Bifs",
"def": "bifExit",
"old": "  let param := if hasStatusParams then s.b.code else []\n",
"new": "  let param := s.b.code\n",
"edit": "the status is repeated as the parameter",
"claim": "the parameter of exit",
"breaks": [
"C23",
"C93"
]
},
{
"id": "Q13",
"file": "Bifs",
"def": "bifRedirect",
"old": "    perform (.setStatus code s.b.code)\n    perform (.setExit (!s.b.modNegate))\n",
"new": "    perform (.setStatus code s.b.code)\n",
"edit": "redirect goes on",
"claim": "redirect stops",
"breaks": [
"C41",
"C93"
]
},
{
"id": "Q14",
"file": "Template",
"def": "finalOut",
"old": "  else if sh.statusCode = c!\"301\" ||",
"new": "  else if sh.statusCode = c!\"300\" || sh.statusCode = c!\"301\" ||",
"edit": "300 is a redirection",
"claim": "the answer",
"breaks": [
"C40",
"C93"
]
},
{
"id": "Q15",
"file": "Template",
"def": "setSrcStr",
"old": ": Tpl := { t with raw := src }",
"new": ": Tpl := { t with raw := src, filePath := [] }",
"edit": "the file name is forgotten",
"claim": "where the main template is",
"breaks": [
"C72"
]
},
{
"id": "Q16",
"file": "Template",
"def": "mergeSchemaMsgpack",
"old": "  | .error e => .err (c!\"Is not a valid MessagePack data: \" ++ e)\n  | .ok v => t.merge v",
"new": "  | .error _ => .ok t\n  | .ok v => t.merge v",
"edit": "bad data are accepted",
"claim": "what is rejected",
"breaks": [
"C60"
]
},
{
"id": "Q17",
"file": "Template",
"def": "mergeSchemaMsgpackPath",
"old": "  | none => .err (env.readErr path)\n  | some _ => t.mergeSchemaMsgpack decoded",
"new": "  | none => .ok t\n  | some _ => t.mergeSchemaMsgpack decoded",
"edit": "a missing file is accepted",
"claim": "what is rejected",
"breaks": [
"C60"
]
},
{
"id": "Q18",
"file": "Bifs",
"def": "bifRand",
"old": "setOut (showInt (env.randRange t 100000000 999999999))",
"new": "setOut (showNat (env.now t))",
"edit": "the time is the random number",
"claim": "what a render depends on",
"breaks": [
"C90"
]
},
{
"id": "Q19",
"file": "Bifs",
"def": "cacheId",
"old": "    id ++ s.sh.lang ++ expires\n",
"new": "    id ++ s.sh.lang ++ showNat (env.now s.sh.w.tick) ++ expires\n",
"edit": "entries depend on the time",
"claim": "what identifies an entry",
"breaks": [
"C38",
"C85"
]
},
{
"id": "Q20",
"file": "Prog",
"def": "handleUnmatched",
"old": "    statusText := statusTextOf c!\"500\" }",
"new": "    statusText := statusTextOf c!\"500\"\n    exit := true }",
"edit": "an unmatched block stops the page",
"claim": "who stops a render",
"breaks": [
"C92"
]
},
{
"id": "Q21",
"file": "Interp",
"def": "blocksGo",
"old": "    if sh.exit then .ok out sh inh\n",
"new": "    if sh.exit then .ok (trim out) sh inh\n",
"edit": "the text is trimmed",
"claim": "what is printed before an exit",
"breaks": [
"C68",
"C93"
]
},
{
"id": "Q22",
"file": "Bifs",
"def": "bifLang",
"old": "  setOut s.sh.lang\n",
"new": "  setOut s.sh.lang\n  perform (.pushFile .locale s.sh.lang)\n",
"edit": "lang counts as a locale file",
"claim": "who adds files",
"breaks": [
"C92"
]
},
{
"id": "Q23",
"file": "Bifs",
"def": "outUncached",
"old": "setOut (if s.inh.inCache then",
"new": "setOut (if !s.inh.inCache then",
"edit": "exit prints itself outside of the cache",
"claim": "exit prints nothing",
"breaks": [
"C23",
"C93"
]
},
{
"id": "R01",
"file": "Clean",
"def": "isExpired",
"old": "decide (now - mtime \u2265 life)",
"new": "decide (now - mtime > life)",
"edit": "removed one second later",
"claim": "what is removed",
"breaks": [
"C95",
"C96"
]
},
{
"id": "R02",
"file": "Clean",
"def": "isHex3",
"old": "name.length == 3 && name.all hex",
"new": "name.all hex",
"edit": "directories of any hexadecimal name are swept",
"claim": "only entries are touched",
"breaks": [
"C95"
]
},
{
"id": "R03",
"file": "Clean",
"def": "visible",
"old": "name.head? != some '.'",
"new": "true",
"edit": "hidden names are matched by *",
"claim": "only entries are touched",
"breaks": [
"C95"
]
},
{
"id": "R04",
"file": "Clean",
"def": "bashNum",
"old": "if d.head? = some '0' then (if",
"new": "if d.head? = some '1' then (if",
"edit": "leading 0 is not octal",
"claim": "how lifetimes are read",
"breaks": [
"C95",
"C96"
]
},
{
"id": "R05",
"file": "Clean",
"def": "wrap",
"old": "if n % 2 ^ 64 < 2 ^ 63 then",
"new": "if n % 2 ^ 64 \u2264 2 ^ 63 then",
"edit": "wrap around one later",
"claim": "how lifetimes are read",
"breaks": [
"C95"
]
},
{
"id": "R06",
"file": "Clean",
"def": "lifeOf",
"old": "if !h.isEmpty && h.all hex &&",
"new": "if h.all hex &&",
"edit": "names without a hash are entries",
"claim": "only entries are touched",
"breaks": [
"C95"
]
},
{
"id": "R07",
"file": "Clean",
"def": "lifeOf",
"old": "!d.isEmpty && d.all dec then",
"new": "d.all dec then",
"edit": "names without a lifetime are entries",
"claim": "only entries are touched",
"breaks": [
"C95"
]
},
{
"id": "R08",
"file": "Clean",
"def": "lifeOf",
"old": "d.all dec then some d",
"new": "d.all hex then some d",
"edit": "lifetimes are hexadecimal",
"claim": "only entries are touched",
"breaks": [
"C95"
]
},
{
"id": "R09",
"file": "Clean",
"def": "outer",
"old": "        if x.1.isEmpty then",
"new": "        if x.2.2.isEmpty then",
"edit": "the directory is removed when nothing was",
"claim": "only empty directories are removed",
"breaks": [
"C95"
]
},
{
"id": "R10",
"file": "Clean",
"def": "run",
"old": "if !contains c!\"neutral-cache\" base then",
"new": "if !contains c!\"cache\" base then",
"edit": "any cache directory",
"claim": "which directories are refused",
"breaks": [
"C95"
]
},
{
"id": "R11",
"file": "Clean",
"def": "noSlash",
"old": "(dir.reverse.dropWhile (\u00b7 == '/')).reverse",
"new": "dir.dropWhile (\u00b7 == '/')",
"edit": "slashes are removed in front",
"claim": "the directory",
"breaks": [
"C95"
]
},
{
"id": "R12",
"file": "Clean",
"def": "sweep",
"old": "(if S.rm (path ++ c!\"/\" ++ n) then r.1 else (n, i) :: r.1,",
"new": "(r.1,",
"edit": "rm always works",
"claim": "what is left",
"breaks": [
"C95"
]
},
{
"id": "R13",
"file": "Clean",
"def": "run",
"old": "\u27e8items, 1, [c!\"Invalid",
"new": "\u27e8items, 0, [c!\"Invalid",
"edit": "status 0 for a refused directory",
"claim": "which directories are refused",
"breaks": [
"C95"
]
},
{
"id": "R14",
"file": "Clean",
"def": "hex",
"old": "('A' \u2264 c && c \u2264 'F')",
"new": "('A' \u2264 c && c \u2264 'Z')",
"edit": "more letters",
"claim": "only entries are touched",
"breaks": [
"C95"
]
},
{
"id": "R15",
"file": "Clean",
"def": "outer",
"old": "let r := outer S base x.2.1 l\n        if",
"new": "let r := outer S base t l\n        if",
"edit": "the clock is not asked again",
"claim": "the times",
"breaks": [
"C95"
]
},
{
"id": "R16",
"file": "Clean",
"def": "run",
"old": "c!\"clean-cache start\" :: r.2.2 ++ [c!\"clean-cache end\"]",
"new": "c!\"clean-cache start\" :: [c!\"clean-cache end\"]",
"edit": "nothing is reported",
"claim": "the report",
"breaks": [
"C95"
]
},
{
"id": "R17",
"file": "CacheRm",
"def": "expired",
"old": "(t : Int) - m \u2265 life",
"new": "(t : Int) - m > life",
"edit": "removed one second later",
"claim": "the script disturbs renders in the last second",
"breaks": [
"C97"
]
},
{
"id": "R18",
"file": "CacheRm",
"def": "expired",
"old": "(t : Int) - m \u2265 life",
"new": "(m : Int) - t \u2265 life",
"edit": "ages are negative",
"claim": "only old entries are removed",
"breaks": [
"C97"
]
},
{
"id": "R19",
"file": "CacheRm",
"def": "step",
"old": "| some i => some ((s.put i []).go p (.writing i 0))",
"new": "| some i => some (s.go p (.writing i 0))",
"edit": "the file is not truncated",
"claim": "complete texts",
"breaks": [
"C97"
]
},
{
"id": "R20",
"file": "CacheRm",
"def": "step",
"old": "| .doomed => some { s.to r .idle with link := none }",
"new": "| .doomed => some { s.to r .idle with link := none, node := fun _ => ([], s.now) }",
"edit": "a removed file is lost for those who read it",
"claim": "complete texts",
"breaks": [
"C97"
]
},
{
"id": "R21",
"file": "CacheRm",
"def": "unread",
"old": "if c.bifs p then c.text p else []",
"new": "if c.bifs p then [] else c.text p",
"edit": "the wrong branch prints",
"claim": "what is printed on errors",
"breaks": [
"C97"
]
},
{
"id": "R22",
"file": "CacheRm",
"def": "readEnd",
"old": "if c.valid acc then .done acc false else unread c p",
"new": ".done acc false",
"edit": "no error for a text that is not UTF-8 (none of these is reachable in the theorems with valid texts)",
"claim": "origin",
"breaks": [
"C97"
]
},
{
"id": "R23",
"file": "CacheRm",
"def": "step",
"old": "link := some s.next, next := s.next + 1 }",
"new": "link := some s.next }",
"edit": "a new file has an old number",
"claim": "complete texts",
"breaks": [
"C97"
]
},
{
"id": "R24",
"file": "CacheRm",
"def": "step",
"old": "if s.link.any (fun i => expired c t (s.node i).2) then .doomed else .idle",
"new": "if s.link.any (fun i => expired c s.now (s.node i).2) then .doomed else .idle",
"edit": "the clock is read after stat",
"claim": "the order of calls of the script",
"breaks": [
"C97"
]
},
{
"id": "R25",
"file": "CacheRm",
"def": "step",
"old": "| .idle => if s.link = none then some { s with dir := false } else none",
"new": "| .idle => some { s with dir := false, link := none }",
"edit": "a directory is removed with its entry",
"claim": "a young entry stays",
"breaks": [
"C97"
]
},
{
"id": "R26",
"file": "CacheRm",
"def": "step",
"old": "if t > (s.node i).2 + c.life then .evaluating else .opening",
"new": "if t \u2265 (s.node i).2 + c.life then .evaluating else .opening",
"edit": "not used in the last second",
"claim": "a young entry stays",
"breaks": [
"C97"
]
},
{
"id": "R27",
"file": "CacheRm",
"def": "step",
"old": "      | none => unread c p\n      | some i => .reading i []",
"new": "      | none => .done (c.text p) false\n      | some i => .reading i []",
"edit": "no error for a removed entry (a fix)",
"claim": "the script disturbs renders",
"breaks": [
"C97"
]
},
{
"id": "R28",
"file": "CacheRm",
"def": "step",
"old": "| .writing _ _ => some (s.go p (.done (c.text p) true))",
"new": "| .writing _ _ => some (s.go p (.done [] true))",
"edit": "nothing printed after a failed write",
"claim": "what is printed on errors (origin holds; the lock theorem excludes failing writes)",
"breaks": [
"C97"
]
},
{
"id": "R29",
"file": "CacheFs",
"def": "readEnd",
"old": "else if c.bifs p then c.text p else []",
"new": "else c.text p",
"edit": "plain code is printed on read errors",
"claim": "what is printed on errors",
"breaks": [
"C39"
]
},
{
"id": "R30",
"file": "Bifs",
"def": "bifFor",
"old": "forList (forValues a b) (fun i",
"new": "forList ((forValues a b).take 1000) (fun i",
"edit": "loops stop after 1000 rounds",
"claim": "the number of copies",
"breaks": [
"C94",
"C36"
]
},
{
"id": "J01",
"file": "Client",
"def": "Page.unclass",
"old": "if j = i \u2227 l = k then false else",
"new": "if j = i \u2227 l = k then true else",
"edit": "the class stays",
"claim": "an element is set up once",
"breaks": [
"C99"
]
},
{
"id": "J02",
"file": "Client",
"def": "Page.setUp",
"old": "| .auto => q.get i .auto",
"new": "| .auto => (q.get i .auto).get i .auto",
"edit": "asks twice",
"claim": "at most one request",
"breaks": [
"C99"
]
},
{
"id": "J03",
"file": "Client",
"def": "Page.setUp",
"old": "| .click => { q with clickL := fun j => if j = i then q.clickL j + 1 else q.clickL j }",
"new": "| .click => q",
"edit": "no listener",
"claim": "a click asks",
"breaks": [
"C99"
]
},
{
"id": "J04",
"file": "Client",
"def": "Page.fev",
"old": "(((p.all .form).all .auto).all .click).all .visible",
"new": "((p.all .form).all .auto).all .click",
"edit": "visible elements are not observed",
"claim": "visible elements ask",
"breaks": [
"C99"
]
},
{
"id": "J05",
"file": "Client",
"def": "Page.targetOf",
"old": "if e.wrap.isEmpty then some i else p.byId e.wrap",
"new": "some i",
"edit": "data-wrap is not used",
"claim": "the element that is replaced",
"breaks": [
"C99"
]
},
{
"id": "J06",
"file": "Client",
"def": "Page.byId",
"old": "p.live i && decide",
"new": "decide",
"edit": "elements that are gone are found",
"claim": "the element that is replaced",
"breaks": [
"C99"
]
},
{
"id": "J07",
"file": "Client",
"def": "Page.get",
"old": "\u27e8i, c, e.url, p.targetOf i e\u27e9",
"new": "\u27e8i, c, e.action, p.targetOf i e\u27e9",
"edit": "the wrong address",
"claim": "the address of a request",
"breaks": [
"C99"
]
},
{
"id": "J08",
"file": "Client",
"def": "Page.posts",
"old": "\u27e8i, .submit, e.action, p.targetOf i e\u27e9",
"new": "\u27e8i, .submit, e.url, p.targetOf i e\u27e9",
"edit": "the wrong address",
"claim": "the address of a submission",
"breaks": [
"C99"
]
},
{
"id": "J09",
"file": "Client",
"def": "Page.having",
"old": "p.live i && p.cls i k",
"new": "p.cls i k",
"edit": "elements that are gone are set up, too (no claim about these)",
"claim": "edge",
"breaks": [
"C99"
]
},
{
"id": "J10",
"file": "Client",
"def": "Page.event",
"old": "Page.fev { p with events := p.events ++ [(ok, r)] }",
"new": "{ p with events := p.events ++ [(ok, r)] }",
"edit": "no set-up after an answer",
"claim": "elements that came with an answer work",
"breaks": [
"C99"
]
},
{
"id": "J11",
"file": "Client",
"def": "step",
"old": "some (({ p with observed := fun j => if j = i then false else p.observed j }).get i .visible)",
"new": "some (p.get i .visible)",
"edit": "still observed",
"claim": "asks once",
"breaks": [
"C99"
]
},
{
"id": "J12",
"file": "Client",
"def": "step",
"old": "| some _ => some (((p.land r).change keep new).event true r)",
"new": "| some _ => some ((p.change keep new).event true r)",
"edit": "the request is not over",
"claim": "one event",
"breaks": [
"C100",
"C102"
]
},
{
"id": "J13",
"file": "Client",
"def": "step",
"old": "| some _ => some (((p.land r).change keep []).event false r)",
"new": "| some _ => some ((p.land r).change keep [])",
"edit": "no event for a failure",
"claim": "one event",
"breaks": [
"C100"
]
},
{
"id": "J14",
"file": "Client",
"def": "step",
"old": "| some _ => some (((p.land r).change keep new).event true r)",
"new": "| some _ => some (((p.land r).change keep new).event false r)",
"edit": "the wrong event",
"claim": "which event",
"breaks": [
"C100"
]
},
{
"id": "J15",
"file": "Client",
"def": "step",
"old": "| none => if q.cause = .submit then some (p.formError r q.node) else some (p.land r)",
"new": "| none => some (p.formError r q.node)",
"edit": "an event for lost requests (a fix)",
"claim": "the refutation",
"breaks": [
"C100"
]
},
{
"id": "J16",
"file": "Client",
"def": "Page.formError",
"old": "restoring := p.restoring ++ [i]",
"new": "restoring := p.restoring",
"edit": "the error is never taken away",
"claim": "submission after an error",
"breaks": [
"C102"
]
},
{
"id": "J17",
"file": "Client",
"def": "step",
"old": "disabled := fun j => if j = i then false else p.disabled j",
"new": "disabled := p.disabled",
"edit": "the buttons stay disabled",
"claim": "submission after an error",
"breaks": [
"C102"
]
},
{
"id": "J18",
"file": "Client",
"def": "Page.posts",
"old": "disabled := fun j => if j = i then true else p.disabled j",
"new": "disabled := p.disabled",
"edit": "the buttons are not disabled",
"claim": "one submission at a time",
"breaks": [
"C102"
]
},
{
"id": "J19",
"file": "Client",
"def": "step",
"old": "p.live i && !(e.buttons && p.disabled i)",
"new": "p.live i",
"edit": "disabled buttons work",
"claim": "one submission at a time",
"breaks": [
"C102"
]
},
{
"id": "J20",
"file": "Client",
"def": "body",
"old": "if hasFile l then formData l ++ appended l else formData l",
"new": "if hasFile l then appended l else formData l",
"edit": "files are not sent",
"claim": "all controls are sent",
"breaks": [
"C101"
]
},
{
"id": "J21",
"file": "Client",
"def": "body",
"old": "if hasFile l then formData l ++ appended l else formData l",
"new": "formData l",
"edit": "a fix",
"claim": "the refutation",
"breaks": [
"C101"
]
},
{
"id": "J22",
"file": "Client",
"def": "formData",
"old": "!c.disabled && !c.name",
"new": "!c.name",
"edit": "disabled controls are sent",
"claim": "which controls are sent",
"breaks": [
"C101"
]
},
{
"id": "J23",
"file": "Client",
"def": "hasFile",
"old": "!c.name.isEmpty && decide (c.type = .file)",
"new": "decide (c.type = .file)",
"edit": "a file control without a name counts",
"claim": "forms without a named file control",
"breaks": [
"C101"
]
},
{
"id": "J24",
"file": "Client",
"def": "Page.change",
"old": "match new[i - p.elems.length]? with\n      | some e => e.has",
"new": "match new[i - p.elems.length]? with\n      | some _ => fun _ => false",
"edit": "new elements have no classes",
"claim": "elements that came with an answer work",
"breaks": [
"C99"
]
},
{
"id": "J25",
"file": "Client",
"def": "step",
"old": "| r :: l => some (Page.send { p with waiting := l } r)",
"new": "| r :: l => some (Page.send p r)",
"edit": "a submission is sent again and again",
"claim": "one request per submission",
"breaks": [
"C99",
"C102"
]
},
{
"id": "J26",
"file": "Client",
"def": "step",
"old": "| .click i => if p.live i then some (p.gets i .click (p.clickL i)) else none",
"new": "| .click i => if p.live i then some (p.gets i .click 1) else none",
"edit": "every element asks",
"claim": "only elements with the class ask",
"breaks": [
"C99"
]
},
{
"id": "J27",
"file": "Client",
"def": "Page.all",
"old": "(p.having k).foldl",
"new": "(p.having k).tail.foldl",
"edit": "the first element is missed",
"claim": "every element is set up",
"breaks": [
"C99"
]
},
{
"id": "J28",
"file": "Client",
"def": "Page.send",
"old": "flying := fun k => if k = p.sent.length then true else p.flying k",
"new": "flying := p.flying",
"edit": "no request is under way",
"claim": "events",
"breaks": [
"C100"
]
},
{
"id": "K01",
"file": "Bifs",
"def": "bifCount",
"old": "setOut (showInt n))\n  bifError",
"new": "setOut (showInt m))\n  bifError",
"edit": "the next number is printed",
"claim": "what count prints",
"breaks": [
"C103"
]
},
{
"id": "K02",
"file": "Bifs",
"def": "bifCount",
"old": "setData s.b.code (showInt m)",
"new": "setData s.b.code (showInt n)",
"edit": "the counter stays",
"claim": "repeated counts",
"breaks": [
"C103"
]
},
{
"id": "K03",
"file": "Bifs",
"def": "bifCount",
"old": "match i32Add env n 1 with",
"new": "match i32Add env n 2 with",
"edit": "steps of two",
"claim": "repeated counts",
"breaks": [
"C103"
]
},
{
"id": "K04",
"file": "Bifs",
"def": "bifCount",
"old": "  bifError c!\"Bif 'count' is deprecated\"",
"new": "  pure ()",
"edit": "no deprecation error",
"claim": "each use reports",
"breaks": [
"C103"
]
},
{
"id": "K05",
"file": "Bifs",
"def": "bifCount",
"old": "setData s.b.params (showInt n)\n      setOut []",
"new": "setData s.b.params (showInt n)\n      setOut (showInt n)",
"edit": "set prints",
"claim": "set prints nothing",
"breaks": [
"C103"
]
},
{
"id": "K06",
"file": "Bifs",
"def": "bifCount",
"old": "denyMods (fun b => b.modFilter || b.modNegate || b.modScope)\n  let isSet \u2190 extractParamsCode true\n  parseCode false\n  let s \u2190 getSt\n  (if isSet then\n    match parseI32 s.b.code",
"new": "denyMods (fun b => b.modFilter || b.modNegate || b.modScope)\n  let isSet \u2190 extractParamsCode true\n  parseCode false\n  let s \u2190 getSt\n  (if isSet then\n    match parseI32 s.b.params",
"edit": "the name is parsed as the number",
"claim": "set stores",
"breaks": [
"C103"
]
},
{
"id": "K07",
"file": "Bifs",
"def": "i32Add",
"old": "if -(2 ^ 31) \u2264 r \u2227 r < 2 ^ 31 then some r",
"new": "if -(2 ^ 31) \u2264 r \u2227 r \u2264 2 ^ 31 then some r",
"edit": "boundary",
"claim": "overflow",
"breaks": [
"C103"
]
},
{
"id": "K08",
"file": "Bifs",
"def": "bifInclude",
"old": "if s.b.modNegate && s.inh.includeFiles.contains canon then setOut []",
"new": "if s.inh.includeFiles.contains canon then setOut []",
"edit": "no file is included twice (a fix of the nesting)",
"claim": "a file that includes itself",
"breaks": [
"C104"
]
},
{
"id": "K09",
"file": "Interp",
"def": "runBif",
"old": "if sh.count + 1 > sh.max then .panic .budget",
"new": "if sh.count > sh.max then .panic .budget",
"edit": "one BIF more",
"claim": "the exact depth",
"breaks": [
"C104"
]
},
{
"id": "W01",
"file": "Interp",
"def": "setModifiers",
"old": "else if c = '!' then setModifiers { b with modNegate := true } r",
"new": "else if c = '!' then setModifiers { b with modNegate := !b.modNegate } r",
"edit": "a second ! undoes the first",
"claim": "repeated modifiers",
"breaks": [
"C105"
]
},
{
"id": "W02",
"file": "Interp",
"def": "setModifiers",
"old": "else if c = '^' then setModifiers { b with modUpline := true } r",
"new": "else if c = '^' then setModifiers { b with modUpline := true, modNegate := false } r",
"edit": "^ clears !",
"claim": "order of modifiers",
"breaks": [
"C105"
]
},
{
"id": "W03",
"file": "Bifs",
"def": "extractParamsCode",
"old": "    | some p => { b with params := trim (b.src.take p), code := trim (b.src.drop (p + 2)) }",
"new": "    | some p => { b with params := b.src.take p, code := trim (b.src.drop (p + 2)) }",
"edit": "parameters are not trimmed",
"claim": "white space before >>",
"breaks": [
"C105"
]
},
{
"id": "W04",
"file": "Bifs",
"def": "extractParamsCode",
"old": "    | some p => { b with params := trim (b.src.take p), code := trim (b.src.drop (p + 2)) }",
"new": "    | some p => { b with params := trim (b.src.take p), code := b.src.drop (p + 2) }",
"edit": "the code is not trimmed",
"claim": "white space after >>",
"breaks": [
"C105"
]
},
{
"id": "W05",
"file": "Interp",
"def": "bifSplit",
"old": ".map (fun p => (p.1, trim p.2))",
"new": ".map (fun p => (p.1, p.2))",
"edit": "the source is not trimmed",
"claim": "outer white space",
"breaks": [
"C105"
]
},
{
"id": "W06",
"file": "Bifs",
"def": "bifDeclare",
"old": "def bifDeclare : Prog Unit := do\n  denyMods (fun b => b.modFilter || b.modNegate || b.modScope)\n  let _ \u2190 extractParamsCode",
"new": "def bifDeclare : Prog Unit := do\n  denyMods (fun b => b.modFilter || b.modNegate || b.modScope || contains c!\"  \" b.src)\n  let _ \u2190 extractParamsCode",
"edit": "two spaces are refused",
"claim": "white space",
"breaks": [
"C105"
]
},
{
"id": "W07",
"file": "Bifs",
"def": "denyFlgParams",
"old": "if contains c!\"{:flg;\" s.b.params then",
"new": "if contains c!\"{:flg;\" s.b.code then",
"edit": "looks in the code",
"claim": "flags of BIFs with arguments",
"breaks": [
"C106"
]
},
{
"id": "W08",
"file": "Bifs",
"def": "bifData",
"old": "if !s.b.flags.isEmpty && !hasFlag s.b c!\"require\" && !hasFlag s.b c!\"inline\" then bifError c!\"flags not allowed\"",
"new": "if !s.b.flags.isEmpty && !hasFlag s.b c!\"require\" && !hasFlag s.b c!\"inline\" && !hasFlag s.b c!\"noparse\" then bifError c!\"flags not allowed\"",
"edit": "data takes noparse",
"claim": "flags of data",
"breaks": [
"C106"
]
},
{
"id": "W09",
"file": "Bifs",
"def": "badFlag",
"old": "((splitChar '|' flags).filter (fun f => !f.isEmpty)).find? (fun f => !(allowed.contains f))",
"new": "((splitChar '|' flags).filter (fun f => f.length > 1)).find? (fun f => !(allowed.contains f))",
"edit": "flags of one letter pass",
"claim": "unknown flags",
"breaks": [
"C106"
]
},
{
"id": "X01",
"file": "Bifs",
"def": "extractArgs",
"old": "  | d :: r => argLoop (splitChar d (d :: r))",
"new": "  | d :: r => argLoop (splitChar '/' (d :: r))",
"edit": "the delimiter is always /",
"claim": "other delimiters",
"breaks": [
"C107"
]
},
{
"id": "X02",
"file": "Bifs",
"def": "cmpBif",
"old": "denyMods (fun b => b.modFilter)\n  let _ \u2190 extractParamsCode false\n  denyFlgParams\n  let args",
"new": "denyMods (fun b => b.modFilter)\n  let _ \u2190 extractParamsCode true\n  denyFlgParams\n  let args",
"edit": "arguments are evaluated before they are divided",
"claim": "data with delimiters",
"breaks": [
"C107"
]
},
{
"id": "X03",
"file": "Bifs",
"def": "extractArgs",
"old": "  | d :: r => argLoop (splitChar d (d :: r))",
"new": "  | d :: r => argLoop ((splitChar d (d :: r)).map trim)",
"edit": "arguments are trimmed",
"claim": "spaces count",
"breaks": [
"C107"
]
},
{
"id": "X04",
"file": "Bifs",
"def": "bifReplace",
"old": "setOut (replaceAll a b s.b.code)",
"new": "setOut (replaceAll b a s.b.code)",
"edit": "swapped",
"claim": "replace",
"breaks": [
"C107"
]
},
{
"id": "X05",
"file": "Bifs",
"def": "bifJoin",
"old": "let keys := argTruthy (argOpt args 3)\n  let s \u2190 getSt",
"new": "let s \u2190 getSt\n  let keys := argTruthy (argOpt (splitChar '/' s.b.params) 3)",
"edit": "the third argument only with /",
"claim": "other delimiters",
"breaks": [
"C107"
]
},
{
"id": "X06",
"file": "Bifs",
"def": "bifFetch",
"old": "let url \u2190 argReq args 1 c!\"arguments not found\"\n  parseCode false\n  let s \u2190 getSt",
"new": "let url \u2190 argReq args 1 c!\"arguments not found\"\n  parseCode false\n  let s \u2190 getSt\n  let url := replaceAll (s.b.params.take 1) [] url",
"edit": "the delimiter is removed from the url",
"claim": "other delimiters",
"breaks": [
"C107"
]
},
{
"id": "Y01",
"file": "Bifs",
"def": "bifJoin",
"old": "let keys := argTruthy (argOpt args 3)",
"new": "let keys := !argTruthy (argOpt args 3)",
"edit": "keys for values",
"claim": "join in the language",
"breaks": [
"C77"
]
},
{
"id": "Y02",
"file": "Bifs",
"def": "bifJoin",
"old": "joinValue env keys separator v",
"new": "joinValue env keys [] v",
"edit": "no separator",
"claim": "join in the language",
"breaks": [
"C77"
]
},
{
"id": "Y03",
"file": "Bifs",
"def": "bifData",
"old": "mergeJson env c!\"data\" dataPart ((readFile",
"new": "mergeJson env c!\"data\" id ((readFile",
"edit": "the whole file instead of its data",
"claim": "files of data",
"breaks": [
"C77"
]
},
{
"id": "Y04",
"file": "Bifs",
"def": "bifData",
"old": "mergeJson env c!\"data\" dataPart ((readFile",
"new": "mergeJson env c!\"locale\" dataPart ((readFile",
"edit": "wrong section",
"claim": "files of data",
"breaks": [
"C77"
]
},
{
"id": "Y05",
"file": "Bifs",
"def": "bifLocale",
"old": "mergeJson env c!\"locale\" id text",
"new": "mergeJson env c!\"locale\" dataPart text",
"edit": "the data part of a file of translations",
"claim": "files of translations",
"breaks": [
"C77"
]
},
{
"id": "Y06",
"file": "Bifs",
"def": "bifLocale",
"old": "mergeJson env c!\"locale\" id text\n        setOut unprintable",
"new": "mergeJson env c!\"locale\" id text\n        setOut []",
"edit": "no output: a following else shows",
"claim": "files of translations",
"breaks": [
"C77"
]
},
{
"id": "Y08",
"file": "Bifs",
"def": "bifHash",
"old": "def bifHash (env : Env) : Prog Unit := do\n  denyMods (fun b => b.modFilter || b.modNegate || b.modScope)\n  modB (fun b => { b with code := trim b.src })\n  let s \u2190 getSt\n  (if contains bifOpen s.b.src then do\n    let x \u2190 childParse s.b.code s.b.modScope",
"new": "def bifHash (env : Env) : Prog Unit := do\n  denyMods (fun b => b.modFilter || b.modNegate || b.modScope)\n  modB (fun b => { b with code := trim b.src })\n  let s \u2190 getSt\n  (if contains bifOpen s.b.src then do\n    let x \u2190 childParse s.b.code true",
"edit": "what is inside changes what is around",
"claim": "hash",
"breaks": [
"C77"
]
},
{
"id": "Y09",
"file": "Bifs",
"def": "bifHash",
"old": "else setOut (env.md5 s.b.code)",
"new": "else setOut (env.md5 s.b.src)",
"edit": "the hash of the source",
"claim": "hash",
"breaks": [
"C77"
]
},
{
"id": "Z01",
"file": "Bridge",
"def": "step",
"old": "    | .missing => some { s.go p (.writing 0) with file := some [] }",
"new": "    | .missing => some { s.go p (.writing 0) with file := some (s.file.getD [255]) }",
"edit": "creation writes something else",
"claim": "bytes of the script",
"breaks": [
"C109"
]
},
{
"id": "Z02",
"file": "Bridge",
"def": "step",
"old": "if s.file.isSome then .ready else .missing",
"new": "if s.file.isSome && s.file != some [] then .ready else .missing",
"edit": "an empty file is written again",
"claim": "what is there stays",
"breaks": [
"C109"
]
},
{
"id": "Z03",
"file": "Bridge",
"def": "step",
"old": "file := some (writeAt f off ((script.drop off).take (k + 1))) }",
"new": "file := some (writeAt f 0 ((script.drop off).take (k + 1))) }",
"edit": "writes at the beginning",
"claim": "whole script",
"breaks": [
"C109"
]
},
{
"id": "Z04",
"file": "Bridge",
"def": "step",
"old": "some { s.go p (.writing (off + ((script.drop off).take (k + 1)).length)) with",
"new": "some { s.go p (.writing (off + (k + 1))) with",
"edit": "counts more than was written",
"claim": "nothing (equivalent at the end): offsets",
"breaks": [
"C109"
]
},
{
"id": "Z05",
"file": "FastCgi",
"def": "execPhp",
"old": "if !(trim err).isEmpty then .error (c!\"php-fpm stderr: \" ++ trim err)",
"new": "if !(trim err).isEmpty && (trim out).isEmpty then .error (c!\"php-fpm stderr: \" ++ trim err)",
"edit": "warnings are ignored when there is output",
"claim": "reports",
"breaks": [
"C108"
]
},
{
"id": "Z06",
"file": "FastCgi",
"def": "badVersion",
"old": "if h.take 5 = utf8 c!\"HTTP/\" then",
"new": "if h.take 4 = utf8 c!\"HTTP/\" then",
"edit": "never recognised",
"claim": "HTTP endpoints",
"breaks": [
"C108"
]
},
{
"id": "Z07",
"file": "FastCgi",
"def": "endpointOk",
"old": "    | some path => !path.isEmpty",
"new": "    | some _ => true",
"edit": "unix: without a path",
"claim": "endpoints",
"breaks": [
"C108"
]
},
{
"id": "Z08",
"file": "FastCgi",
"def": "endpointOk",
"old": "      let t := (stripPrefix? c!\"tcp://\" e).getD e",
"new": "      let t := e",
"edit": "tcp:// is kept",
"claim": "endpoints",
"breaks": [
"C108"
]
},
{
"id": "Z09",
"file": "FastCgi",
"def": "execPhp",
"old": "          | some msg => .error msg\n",
"new": "          | some _ => .ok v\n",
"edit": "errors of the bridge are values",
"claim": "reports",
"breaks": [
"C108"
]
},
{
"id": "Z10",
"file": "Bifs",
"def": "cacheExpired",
"old": "  else some (decide (now > (mtime + expires) % 2 ^ 64))",
"new": "  else some false",
"edit": "the longest lifetimes never end",
"claim": "wrapping",
"breaks": [
"C38"
]
},
{
"id": "V51",
"file": "Interp",
"def": "bifFinish",
"old": "let ne := !s.b.out.isEmpty",
"new": "let ne := s.b.modUpline || !s.b.out.isEmpty",
"edit": "the mark of ^ counts as output",
"claim": "^ changes nothing but white space",
"breaks": [
"C110"
]
},
{
"id": "V52",
"file": "Interp",
"def": "bifFinish",
"old": ".ok (trim (if s.b.modUpline then backspace ++ s.b.out else s.b.out)) s.sh",
"new": ".ok (if s.b.modUpline then backspace ++ s.b.out else trim s.b.out) s.sh",
"edit": "the output of a BIF with ^ is not trimmed",
"claim": "^ changes nothing but the white space before",
"breaks": [
"C110"
]
},
{
"id": "V53",
"file": "Bifs",
"def": "bifLang",
"old": "def bifLang : Prog Unit := do\n  denyMods (fun b => b.modFilter || b.modNegate || b.modScope)",
"new": "def bifLang : Prog Unit := do\n  denyMods (fun b => b.modFilter || b.modNegate || b.modUpline || b.modScope)",
"edit": "^ is refused for lang",
"claim": "^ is allowed everywhere",
"breaks": [
"C110"
]
},
{
"id": "V54",
"file": "Bifs",
"def": "bifCode",
"old": "def bifCode : Prog Unit := do\n  denyMods (fun b => b.modFilter || b.modNegate)\n  let _ \u2190 extractParamsCode true",
"new": "def bifCode : Prog Unit := do\n  denyMods (fun b => b.modFilter || b.modNegate)\n  modB (fun b => { b with modScope := b.modScope || b.modUpline })\n  let _ \u2190 extractParamsCode true",
"edit": "^ implies + for code",
"claim": "^ changes nothing but white space",
"breaks": [
"C110"
]
},
{
"id": "V55",
"file": "Interp",
"def": "setModifiers",
"old": "else if c = '^' then setModifiers { b with modUpline := true } r",
"new": "else if c = '^' then setModifiers { b with modUpline := true, modNegate := false } r",
"edit": "^ takes back a ! before it",
"claim": "^ changes nothing but white space",
"breaks": [
"C110",
"C105"
]
},
{
"id": "V56",
"file": "Template",
"def": "Tpl.mergeSchemaMsgpack",
"old": "c!\"Is not a valid MessagePack data: \" ++ e",
"new": "c!\"Is not a valid MessagePack data: \"",
"edit": "the reason is dropped",
"claim": "reports of rejected documents",
"breaks": [
"C60"
]
},
{
"id": "V57",
"file": "Php",
"def": "isArray",
"old": "  | .arr _ => true\n",
"new": "  | .arr _ => false\n",
"edit": "a list is not an array",
"claim": "answers of the bridge",
"breaks": [
"C83"
]
},
{
"id": "AA01",
"file": "Bifs",
"def": "getData",
"old": "  | none => getFromKey env.f64 (dataOf s) name\n\n/-- The choice",
"new": "  | none => if startsWith c!\"_\" name then [] else getFromKey env.f64 (dataOf s) name\n\n/-- The choice",
"edit": "names beginning with _ are private",
"claim": "names do not matter",
"breaks": [
"C111"
]
},
{
"id": "AA02",
"file": "Bifs",
"def": "bifEach",
"old": "forList (eachItems collection) (fun kv => eachIter keyName valName kv.1 kv.2 blocks)",
"new": "forList (eachItems collection) (fun kv => eachIter (if keyName = c!\"_\" then c!\"key\" else keyName) valName kv.1 kv.2 blocks)",
"edit": "the name _ is a default name",
"claim": "names do not matter",
"breaks": [
"C111"
]
},
{
"id": "AA03",
"file": "Bifs",
"def": "bifFor",
"old": "forList (forValues a b) (fun i => forIter varName (showInt i) blocks)",
"new": "forList (forValues a b) (fun i => forIter (varName.take 8) (showInt i) blocks)",
"edit": "long names are cut",
"claim": "names do not matter",
"breaks": [
"C111"
]
},
{
"id": "AB01",
"file": "Bifs",
"def": "bifCode",
"old": "if hasFlag s.b c!\"encode_tags\" then reescape false s.b.code else s.b.code",
"new": "if hasFlag s.b c!\"encode_tags\" || s.sh.filterAll then reescape false s.b.code else s.b.code",
"edit": "filter_all encodes code",
"claim": "options matter only to their readers",
"breaks": [
"C112"
]
},
{
"id": "AB02",
"file": "Bifs",
"def": "bifEach",
"old": "forList (eachItems collection) (fun kv =>",
"new": "forList ((eachItems collection).take s.sh.max) (fun kv =>",
"edit": "a loop has as many steps as the limit",
"claim": "a higher limit changes nothing",
"breaks": [
"C112"
]
},
{
"id": "AB03",
"file": "Interp",
"def": "runBif",
"old": "if sh.count + 1 > sh.max then .panic .budget\n  else bifParse env R { sh with count := sh.count + 1 }",
"new": "if sh.count + 1 > sh.max then .panic .budget\n  else bifParse env R { sh with count := sh.max - sh.count }",
"edit": "counts what is left",
"claim": "a higher limit changes nothing",
"breaks": [
"C112"
]
},
{
"id": "AB04",
"file": "Bifs",
"def": "bifVar",
"old": "setAlias c!\"unprintable\"\n    setOut unprintable",
"new": "setAlias c!\"unprintable\"\n    setOut (if contains c!\"remove\" s.sh.comments then [] else unprintable)",
"edit": "comments: remove drops the unprintable",
"claim": "options matter only to their readers",
"breaks": [
"C112"
]
},
{
"id": "AB05",
"file": "Bifs",
"def": "bifLang",
"old": "setOut s.sh.lang",
"new": "setOut (if s.sh.cacheDisable then [] else s.sh.lang)",
"edit": "lang reads an option of the cache",
"claim": "options matter only to their readers",
"breaks": [
"C112"
]
},
{
"id": "AC01",
"file": "ScanCost",
"def": "rcsLoopT",
"old": "let l := rcsLoopT src f x.1 x.2.1\n",
"new": "let l := rcsLoopT src f x.1 (if x.2.2 then x.2.1 else openPos + 3)\n",
"edit": "a comment that is not closed is read again",
"claim": "comments are found in linear time",
"breaks": [
"C114"
]
},
{
"id": "AC02",
"file": "ScanCost",
"def": "blocksLoopT",
"old": "let l := blocksLoopT src f e\n",
"new": "let l := blocksLoopT src f startBody\n",
"edit": "the blocks in a block are looked for too",
"claim": "blocks are found in linear time",
"breaks": [
"C114"
]
},
{
"id": "AC03",
"file": "ScanCost",
"def": "codeLoopT",
"old": "add 2 (codeLoopT src f (level + 1) (i + 2))",
"new": "add (2 + i) (codeLoopT src f (level + 1) (i + 2))",
"edit": "looks back to the start at each block",
"claim": "the code is found in linear time",
"breaks": [
"C114"
]
},
{
"id": "AC04",
"file": "ScanCost",
"def": "gapsLoopT",
"old": "| none => add (findCost (utf8 c!\":}\") x) (gapsLoopT src e r)",
"new": "| none => add (findCost (utf8 c!\":}\") src) (gapsLoopT src e r)",
"edit": "the whole text is searched for each gap",
"claim": "blocks are found in linear time",
"breaks": [
"C114"
]
},
{
"id": "AD01",
"file": "Utils",
"def": "mergeSchema",
"old": "    | .obj ao => .obj (mergeObj ao b)\n    | _ => .obj b\n  | b => b\n/-- The `for",
"new": "    | .obj ao => .obj (mergeObj ao b)\n    | _ => .obj b\n  | .str [] => a\n  | b => b\n/-- The `for",
"edit": "an empty text does not overwrite",
"claim": "documents can be grouped",
"breaks": [
"C115"
]
},
{
"id": "AD02",
"file": "Utils",
"def": "mergeObj",
"old": "| none => mergeObj (a ++ [(k, v)]) r",
"new": "| none => mergeObj ((k, v) :: a) r",
"edit": "new keys come first",
"claim": "documents can be grouped, keys in their place",
"breaks": [
"C115"
]
},
{
"id": "AD03",
"file": "Utils",
"def": "syncHeaders",
"old": "  match Obj.get? c!\"requested-with-ajax\" h with\n  | some v => Obj.insert c!\"REQUESTED-WITH-AJAX\" v (Obj.insert c!\"Requested-With-Ajax\" v h)\n  | none =>\n    match Obj.get? c!\"Requested-With-Ajax\" h with\n    | some v => Obj.insert c!\"REQUESTED-WITH-AJAX\" v (Obj.insert c!\"requested-with-ajax\" v h)",
"new": "  match Obj.get? c!\"Requested-With-Ajax\" h with\n  | some v => Obj.insert c!\"REQUESTED-WITH-AJAX\" v (Obj.insert c!\"requested-with-ajax\" v h)\n  | none =>\n    match Obj.get? c!\"requested-with-ajax\" h with\n    | some v => Obj.insert c!\"REQUESTED-WITH-AJAX\" v (Obj.insert c!\"Requested-With-Ajax\" v h)",
"edit": "another spelling is preferred",
"claim": "which spelling of the ajax header wins",
"breaks": [
"C115"
]
},
{
"id": "AE01",
"file": "Utils",
"def": "escapeChar",
"old": "  else if c = '\"' then c!\"&quot;\"\n",
"new": "",
"edit": "double quotes are not replaced",
"claim": "data cannot leave the value of an attribute",
"breaks": [
"C116"
]
},
{
"id": "AE02",
"file": "Bifs",
"def": "bifVar",
"old": "if !startsWith c!\"CONTEXT->\" varName then reescape true out0 else out0",
"new": "if !startsWith c!\"CONTEXT->\" varName then reescape true out0 else unescapeChars true out0",
"edit": "request data are printed without the filter",
"claim": "request data cannot change the markup",
"breaks": [
"C116"
]
},
{
"id": "AE03",
"file": "Template",
"def": "replacements",
"old": "replaceAll unprintable [] (dropBackspace 0 out)",
"new": "replaceAll c!\"&lt;\" c!\"<\" (replaceAll unprintable [] (dropBackspace 0 out))",
"edit": "entities are decoded in the end",
"claim": "data cannot change the markup",
"breaks": [
"C116"
]
},
{
"id": "AF01",
"file": "Bifs",
"def": "bifVar",
"old": "    let out0 := getData env s varName\n    let out1 :=\n      if (s.b.modFilter",
"new": "    let out0 := if s.sh.lang = c!\"es\" then getData env s (c!\"es_\" ++ varName) else getData env s varName\n    let out1 :=\n      if (s.b.modFilter",
"edit": "variables read the language",
"claim": "a page without trans is the same in every language",
"breaks": [
"C117"
]
},
{
"id": "AF02",
"file": "Bifs",
"def": "bifLang",
"old": "setOut s.sh.lang",
"new": "setOut (match (dataOf s).get? c!\"lang\" with | some (.str l) => l | _ => s.sh.lang)",
"edit": "the data are asked for the language",
"claim": "lang reads only the language",
"breaks": [
"C117"
]
},
{
"id": "AG01",
"file": "Bifs",
"def": "bifCache",
"old": "if cacheOff s.sh hasPost hasGet hasCookies then do",
"new": "if s.inh.inCache || cacheOff s.sh hasPost hasGet hasCookies then do",
"edit": "a cached part in a cached part is only evaluated",
"claim": "nested cached parts have entries of their own",
"breaks": [
"C118"
]
},
{
"id": "AG02",
"file": "Bifs",
"def": "cacheLookup",
"old": "      | some content => setOut content\n",
"new": "      | some content => do\n        perform (.writeFile file content (env.now t))\n        setOut content\n",
"edit": "using an entry renews it",
"claim": "a text is shown at most for its lifetime",
"breaks": [
"C118",
"C38",
"C85"
]
},
{
"id": "AH01",
"file": "Bifs",
"def": "bifCache",
"old": "if s.inh.inCache then setOut s.raw",
"new": "if false then setOut s.raw",
"edit": "excluded parts are evaluated while the cached part is stored",
"claim": "excluded parts are never stored",
"breaks": [
"C119",
"C75"
]
},
{
"id": "AH02",
"file": "Bifs",
"def": "bifCache",
"old": "if s.inh.inCache then setOut s.raw",
"new": "if s.inh.inCache then setOut s.b.code",
"edit": "the code of an excluded part is stored without its delimiters",
"claim": "excluded parts are stored as they are written",
"breaks": [
"C119",
"C75"
]
},
{
"id": "AH03",
"file": "Interp",
"def": "bifParse",
"old": "if !only.isEmpty && !contains only name && !inh.inOnly then",
"new": "if !only.isEmpty && !contains only name then",
"edit": "BIFs inside an excluded part are not evaluated in the second pass",
"claim": "an excluded part is evaluated as anywhere else",
"breaks": [
"C119"
]
},
{
"id": "AH04",
"file": "Interp",
"def": "bifParse",
"old": "{ inh with inOnly := true }",
"new": "{ inh with inOnly := inh.inOnly }",
"edit": "the second pass does not know that it is in an excluded part",
"claim": "an excluded part is evaluated as anywhere else",
"breaks": [
"C119"
]
},
{
"id": "AH05",
"file": "Bifs",
"def": "bifCache",
"old": "if s.inh.inCache then setOut s.raw",
"new": "if s.inh.inCache || !s.only.isEmpty then setOut s.raw",
"edit": "the second pass leaves excluded parts as they are",
"claim": "excluded parts are evaluated at every request",
"breaks": [
"C119",
"C75"
]
},
{
"id": "AI01",
"file": "Interp",
"def": "bifParse",
"old": "if !only.isEmpty && !contains only name && !inh.inOnly then",
"new": "if !only.isEmpty && !contains name only && !inh.inOnly then",
"edit": "the second pass selects the names that are a part of !cache",
"claim": "other BIFs stay as they are",
"breaks": [
"C120"
]
},
{
"id": "AI02",
"file": "Interp",
"def": "bifFinish",
"old": "lastCoalesceOut := ne }",
"new": "lastCoalesceOut := ne, inOnly := false }",
"edit": "the second pass goes back to selecting after each BIF",
"claim": "what follows the first excluded part is evaluated (C120_exact)",
"breaks": [
"C120",
"C119"
]
},
{
"id": "AI03",
"file": "Interp",
"def": "bifParse",
"old": "    if !only.isEmpty then .ok raw sh inh\n",
"new": "    if !only.isEmpty then .ok [] sh inh\n",
"edit": "the second pass drops what has no name",
"claim": "other BIFs stay as they are",
"breaks": [
"C120"
]
},
{
"id": "AJ01",
"file": "Bifs",
"def": "cacheStore",
"old": "      | none => perform (.writeFile file s.b.code (env.now t))",
"new": "      | none => perform (.writeFile file (trim s.b.code ++ c!\" \") (env.now t))",
"edit": "entries end with a space",
"claim": "the cache is invisible",
"breaks": [
"C121",
"C118"
]
},
{
"id": "AJ02",
"file": "Bifs",
"def": "cacheLookup",
"old": "      | some content => setOut content\n",
"new": "      | some content => do\n        let x \u2190 childParse content s.b.modScope\n        setOut x\n",
"edit": "an entry that is found is evaluated",
"claim": "entries stand for their parts",
"breaks": [
"C121",
"C118"
]
},
{
"id": "AJ03",
"file": "Bifs",
"def": "cacheLookup",
"old": "    | some true => cacheStore env restore dir file\n",
"new": "    | some true => do\n      match e.content with\n      | some content => setOut content\n      | none => cacheStore env restore dir file\n",
"edit": "expired entries are used",
"claim": "expired entries are made anew",
"breaks": [
"C118",
"C121"
]
},
{
"id": "AK01",
"file": "Template",
"def": "cacheLoop",
"old": "    if contains c!\"{:!cache;\" out then\n      match pass",
"new": "    if contains c!\"{:!cache; \" out then\n      match pass",
"edit": "the second pass looks for excluded parts that start with a space",
"claim": "excluded parts are completed",
"breaks": [
"C122",
"C119"
]
},
{
"id": "AK02",
"file": "Bifs",
"def": "cacheParse",
"old": "    perform (.setInCache true)\n    let x \u2190 childParse s.b.code s.b.modScope\n    store x\n    perform (.setInCache restore)",
"new": "    let x \u2190 childParse s.b.code s.b.modScope\n    store x",
"edit": "a cached part is stored with its excluded parts evaluated",
"claim": "what is stored does not depend on the visitor",
"breaks": [
"C122",
"C119"
]
},
{
"id": "AL01",
"file": "Bifs",
"def": "bifJoin",
"old": "argReq args 2 c!\"arguments 'separator' not found\"",
"new": "argReq args 2 c!\"arguments 'array' not found\"",
"edit": "join without a separator says that the array is missing",
"claim": "the error tells which argument is missing",
"breaks": [
"C123",
"C89"
]
},
{
"id": "AL02",
"file": "Bifs",
"def": "bifEach",
"old": "    if startsWith c!\"local::\" keyName || startsWith c!\"local::\" valName then",
"new": "    if startsWith c!\"local::\" keyName && startsWith c!\"local::\" valName then",
"edit": "a local value variable is accepted by each",
"claim": "each needs global variables",
"breaks": [
"C123",
"C36"
]
},
{
"id": "AL03",
"file": "Bifs",
"def": "bifFor",
"old": "      | [] => bifError c!\"arguments 'to' not found\"",
"new": "      | [] => setOut []",
"edit": "for without an end does nothing, and is no error",
"claim": "for without an end is an error",
"breaks": [
"C123"
]
},
{
"id": "AL04",
"file": "Bifs",
"def": "bifRand",
"old": "if x > y then bifError",
"new": "if x \u2265 y then bifError",
"edit": "a range of one number is an error",
"claim": "ranges from a number to itself",
"breaks": [
"C48",
"C123"
]
},
{
"id": "AL05",
"file": "Bifs",
"def": "bifCache",
"old": "      let expires \u2190 argReq args 1 c!\"arguments 'expires' not found\"",
"new": "      let expires := argOpt args 1",
"edit": "a cache without lifetime is accepted",
"claim": "cache without a lifetime is an error",
"breaks": [
"C123"
]
},
{
"id": "AM01",
"file": "Interp",
"def": "bifResult",
"old": "bifFinish { s with sh := pushError sh1 (errorLine (env.localTime s.sh.w.tick) e) }",
"new": "bifFinish { s with sh := pushError { sh1 with flags := [] } (errorLine (env.localTime s.sh.w.tick) e) }",
"edit": "an error forgets the flags",
"claim": "an error changes nothing but the list of errors",
"breaks": [
"C124",
"C42"
]
},
{
"id": "AM02",
"file": "State",
"def": "pushError",
"old": "  { sh with schema := schema, hasError := true }",
"new": "  { sh with schema := schema, hasError := true, statusText := c!\"Error\" }",
"edit": "an error sets the status text",
"claim": "an error changes nothing but the list of errors",
"breaks": [
"C124"
]
},
{
"id": "AM03",
"file": "Bifs",
"def": "bifElse",
"old": "if xor s.inh.lastBifOut s.b.modNegate",
"new": "if xor (s.inh.lastBifOut || s.sh.hasError) s.b.modNegate",
"edit": "else shows nothing after an error anywhere in the page",
"claim": "an error changes nothing else",
"breaks": [
"C124",
"C34"
]
},
{
"id": "AM04",
"file": "Bifs",
"def": "bifCoalesce",
"old": "perform (.setLastCoalesce false)",
"new": "perform (.setLastCoalesce (\u2190 getSt).sh.hasError)",
"edit": "coalesce shows nothing after an error anywhere in the page",
"claim": "an error changes nothing else",
"breaks": [
"C124",
"C35"
]
},
{
"id": "AN01",
"file": "Bifs",
"def": "bifVar",
"old": "if !startsWith c!\"CONTEXT->\" varName then reescape true out0 else out0",
"new": "(if !startsWith c!\"CONTEXT->\" varName then reescape true out0 else escapeChars true out0)",
"edit": "request data are encoded again by the filter",
"claim": "filtered data are displayed as they are",
"breaks": [
"C125",
"C25"
]
},
{
"id": "AN02",
"file": "Utils",
"def": "filterValue",
"old": "  | .str s => .str (filterStr s)",
"new": "  | .str s => .str (escapeChars true s)",
"edit": "request data that are encoded already are encoded again",
"claim": "request data are displayed as they are",
"breaks": [
"C125",
"C03"
]
},
{
"id": "AN03",
"file": "Utils",
"def": "filterValueKeys",
"old": "    if !(o.any (fun kv => keyNeedsChange kv.1)) then .obj (filterKeysVals o)",
"new": "    if !(o.any (fun kv => keyNeedsChange kv.1)) then .obj o",
"edit": "values below plain keys keep their keys",
"claim": "request data are found under the sanitised keys",
"breaks": [
"C125",
"C04"
]
},
{
"id": "AO01",
"file": "Interp",
"def": "blocksGo",
"old": "    if sh.exit then .ok out sh inh",
"new": "    if sh.exit && prevEnd = 0 then .ok out sh inh",
"edit": "the rest of a page is evaluated after the end",
"claim": "what comes after the end does not matter",
"breaks": [
"C126",
"C68"
]
},
{
"id": "AO02",
"file": "Interp",
"def": "blocksGo",
"old": "    if sh.exit then .ok out sh inh",
"new": "    if sh.exit then .ok (out ++ slice src prevEnd s) sh inh",
"edit": "the text up to the next BIF is printed after the end",
"claim": "only a rest without BIFs is printed",
"breaks": [
"C126",
"C68"
]
},
{
"id": "AO03",
"file": "Interp",
"def": "blocksGo",
"old": "    if sh.exit then .ok out sh inh",
"new": "    if sh.exit then .ok (trim (out ++ src.drop prevEnd)) sh inh",
"edit": "the source of the rest is printed after the end",
"claim": "of the rest nothing is printed",
"breaks": [
"C126",
"C68"
]
},
{
"id": "AO04",
"file": "Template",
"def": "finalOut",
"old": "strLe sh.statusCode c!\"599\"",
"new": "strLe sh.statusCode c!\"499\"",
"edit": "a page that ends in a server error shows its content",
"claim": "the rest of a replaced page does not matter",
"breaks": [
"C126",
"C40"
]
},
{
"id": "AP01",
"file": "Interp",
"def": "blocksGo",
"old": "let out1 := if prevEnd < s then out ++ slice src prevEnd s else out",
"new": "let out1 := if prevEnd < s then out ++ trim (slice src prevEnd s) else out",
"edit": "white space next to a BIF is lost",
"claim": "where a BIF stands does not matter",
"breaks": [
"C127",
"C68"
]
},
{
"id": "AP02",
"file": "Interp",
"def": "blocksGo",
"old": "let out1 := if prevEnd < s then out ++ slice src prevEnd s else out",
"new": "let out1 := if prevEnd + 1 < s then out ++ slice src prevEnd s else out",
"edit": "a single character between BIFs is lost",
"claim": "where a BIF stands does not matter",
"breaks": [
"C127",
"C68"
]
},
{
"id": "AP03",
"file": "Interp",
"def": "blocksGo",
"old": "let out1 := if prevEnd < s then out ++ slice src prevEnd s else out",
"new": "let out1 := if prevEnd < s && (prevEnd != 0 || out.isEmpty) then out ++ slice src 0 s else out",
"edit": "the text before a BIF is printed from the start",
"claim": "where a BIF stands does not matter",
"breaks": [
"C127",
"C68"
]
},
{
"id": "AQ01",
"file": "Interp",
"def": "blocksGo",
"old": "match runBif env R sh inh (slice src s e) only with",
"new": "match runBif env R sh { inh with lastBifOut := inh.lastBifOut && !(prevEnd < s) } (slice src s e) only with",
"edit": "text between two BIFs makes else forget",
"claim": "the text has no influence on the BIFs",
"breaks": [
"C128",
"C68"
]
},
{
"id": "AQ02",
"file": "Interp",
"def": "blocksGo",
"old": "        blocksGo env R src only e out1 r sh inh\n",
"new": "        blocksGo env R src only e out1 r { sh with count := sh.count + 1 } inh\n",
"edit": "comments count as BIFs",
"claim": "comments have no influence on the BIFs",
"breaks": [
"C128",
"C17"
]
},
{
"id": "AQ03",
"file": "Interp",
"def": "blocksGo",
"old": "    if sh.exit then .ok out sh inh",
"new": "    if sh.exit || decide (out.length > 65536) then .ok out sh inh",
"edit": "a page with much text is cut",
"claim": "the text has no influence on the BIFs",
"breaks": [
"C128",
"C68"
]
},
{
"id": "AR01",
"file": "Bifs",
"def": "condBif",
"old": "    outCode\n  else .pure ()\n",
"new": "    outCode\n  else do\n    parseCode s.b.modScope\n    setOut []\n",
"edit": "a condition that does not hold evaluates its code and drops what it prints",
"claim": "code that is not reached does not matter",
"breaks": [
"C129",
"C33"
]
},
{
"id": "AR02",
"file": "Bifs",
"def": "bifElse",
"old": "if xor s.inh.lastBifOut s.b.modNegate then setOut []",
"new": "if xor s.inh.lastBifOut s.b.modNegate then do\n    parseCode s.b.modScope\n    setOut []",
"edit": "an else that is not taken evaluates its code",
"claim": "code that is not reached does not matter",
"breaks": [
"C129",
"C34"
]
},
{
"id": "AR03",
"file": "Bifs",
"def": "cmpBif",
"old": "  else setOut []\n\n/-- `parse_bif_contains`",
"new": "  else do\n    parseCode s.b.modScope\n    setOut []\n\n/-- `parse_bif_contains`",
"edit": "a comparison that fails evaluates its code",
"claim": "code that is not reached does not matter",
"breaks": [
"C129",
"C33"
]
},
{
"id": "AR04",
"file": "Interp",
"def": "blocksGo",
"old": "        blocksGo env R src only e out1 r sh inh\n",
"new": "        blocksGo env R src only e out1 r { sh with count := sh.count + (if startsWith c!\"{:*\" (slice src s e) then 0 else 1) } inh\n",
"edit": "BIFs that coalesce skips are counted",
"claim": "the BIFs after the one that printed do not matter",
"breaks": [
"C129",
"C35",
"C17"
]
},
{
"id": "AS01",
"file": "Interp",
"def": "blocksGo",
"old": "match runBif env R sh inh (slice src s e) only with",
"new": "match runBif env R { sh with count := sh.count + prevEnd } inh (slice src s e) only with",
"edit": "a BIF counts more the later it stands in its text",
"claim": "code can be exchanged with code that does the same",
"breaks": [
"C130",
"C68"
]
},
{
"id": "AS02",
"file": "Bifs",
"def": "bifElse",
"old": "if xor s.inh.lastBifOut s.b.modNegate then setOut []",
"new": "if xor s.inh.lastBifOut s.b.modNegate || s.b.src.length > 4096 then setOut []",
"edit": "an else with a long code shows nothing",
"claim": "code can be exchanged with code that does the same",
"breaks": [
"C130",
"C34"
]
},
{
"id": "AS03",
"file": "Bifs",
"def": "condBif",
"old": "  if xor (test st.1 st.2) s.b.modNegate then do",
"new": "  if xor (test st.1 st.2) s.b.modNegate && !startsWith c!\"!\" s.b.code then do",
"edit": "a condition whose code begins with ! does not show it",
"claim": "code can be exchanged with code that does the same",
"breaks": [
"C130",
"C33"
]
},
{
"id": "AT01",
"file": "FastCgi",
"def": "be16",
"old": "a.toNat * 256 + b.toNat",
"new": "b.toNat * 256 + a.toNat",
"edit": "lengths are read little endian",
"claim": "answers are read as they are framed",
"breaks": [
"C50"
]
},
{
"id": "AT02",
"file": "FastCgi",
"def": "readRound",
"old": "match readExact pad.toNat s with",
"new": "match readExact 0 s with",
"edit": "padding is not skipped",
"claim": "answers are read as they are framed",
"breaks": [
"C50"
]
},
{
"id": "AT03",
"file": "FastCgi",
"def": "readExact",
"old": "if n \u2264 s.length then",
"new": "if n < s.length then",
"edit": "the last bytes of an answer are not read",
"claim": "answers are read as they are framed",
"breaks": [
"C50"
]
},
{
"id": "AT04",
"file": "FastCgi",
"def": "readRound",
"old": "if be16 i1 i0 \u2260 1 then",
"new": "if be16 i1 i0 \u2260 0 then",
"edit": "records of another request are taken for ours",
"claim": "answers are read as they are framed",
"breaks": [
"C50"
]
},
{
"id": "AT05",
"file": "FastCgi",
"def": "readRound",
"old": "else if type = 7 then .next s out (err ++ content)",
"new": "else if type = 7 then .next s (out ++ content) err",
"edit": "the errors of PHP are part of its output",
"claim": "answers are read as they are framed",
"breaks": [
"C50"
]
},
{
"id": "AT06",
"file": "Template",
"def": "movetoInner",
"old": "    | none => movetoInner r out\n",
"new": "    | none => some out\n",
"edit": "code to be moved to a tag that is missing stops the moves",
"claim": "moveto moves each distinct code",
"breaks": [
"C37"
]
},
{
"id": "AT07",
"file": "Template",
"def": "movetoOuter",
"old": "  | _ :: r, out => movetoOuter r out",
"new": "  | _ :: _, out => some out",
"edit": "a wrong entry stops the moves",
"claim": "moveto moves each distinct code",
"breaks": [
"C37"
]
},
{
"id": "AT08",
"file": "Template",
"def": "afterWs",
"old": "stripPrefix? mark (s.dropWhile isWs)",
"new": "stripPrefix? mark s",
"edit": "the modifier ^ does not remove the white space",
"claim": "^ removes the white space before",
"breaks": [
"C69",
"C47"
]
}
]