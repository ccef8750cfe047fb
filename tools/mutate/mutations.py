"""The seeded bugs.  M(id, file, definition, old, new, what, broken claim, properties that must notice)"""
import json, os
L = []
def M(id, file, d, old, new, edit, claim, *breaks):
    L.append(dict(id=id, file=file, **{'def': d}, old=old, new=new, edit=edit, claim=claim, breaks=list(breaks)))

# ---- Utils
M('U01', 'Utils', 'escapeChar', '''  else if c = '<' then c!"&lt;"
  else if c = '>' then c!"&gt;"''', '''  else if c = '<' then c!"&lt;"
  else if c = '>' then c!">"''', "'>' is not escaped", 'escaped text has no raw special character', 'C01')
M('U02', 'Utils', 'escapeChar', '''  else if c = '>' then c!"&gt;"''', '''  else if c = '>' then c!"&lt;"''', "'>' becomes &lt;", 'unescape undoes escape', 'C02')
M('U03', 'Utils', 'entityText', '''  else if semi && entity = c!"#x2F" then c!"/"
''', '', '&#x2F; is not decoded', 'unescape undoes escape', 'C02', 'C03')
M('U04', 'Utils', 'needsEscape', ''' || c = '/' || (b &&''', ''' || (b &&''', "needs_escape forgets '/'", 'escaped text has no raw special character', 'C01')
M('U05', 'Utils', 'filterStr', 'if unescaped.owned then escapeCow true unescaped.val else escapeCow true s\n  if processed.owned then processed.val else s', 'escapeCow true s\n  if processed.owned then processed.val else s', 'filter_value does not unescape first', 'filtering twice is filtering once', 'C03')
M('U06', 'Utils', 'filterStr', 'let unescaped := unescapeCow true s\n  let processed := if unescaped.owned then escapeCow true unescaped.val', 'let unescaped := unescapeCow true s\n  let processed := if unescaped.owned then escapeCow false unescaped.val', 'braces are not escaped in text that contains an entity', 'sanitised CONTEXT has no braces', 'C04')
M('U07', 'Utils', 'filterValueList', '| v :: r => filterValue v :: filterValueList r', '| v :: r => filterValue v :: r', 'only the first element of an array is filtered', 'sanitised CONTEXT is clean at every depth', 'C04')
M('U08', 'Utils', 'filterKeysVals', '| (k, v) :: r => (k, filterValueKeys v) :: filterKeysVals r', '| (k, v) :: r => (k, v) :: filterKeysVals r', 'nested keys are not filtered when the outer keys are clean', 'sanitised CONTEXT keys are clean', 'C04')
M('U09', 'Utils', 'mergeObj', 'mergeObj (Obj.insert k (mergeSchema va v) a) r', 'mergeObj (Obj.insert k v a) r', 'merge replaces nested objects instead of merging them', 'merge is recursive', 'C06')
M('U10', 'Utils', 'mergeSchema', '    | _ => .obj b\n  | b => b\n/-- The `for (k, v) in b_map` loop (src/utils.rs:41-47). -/', '    | _ => .obj b\n  | .null => a\n  | b => b\n/-- The `for (k, v) in b_map` loop (src/utils.rs:41-47). -/', 'merging null keeps the old value', 'last writer wins', 'C06')
M('U11', 'Utils', 'entryMerge', "| (k', x) :: r => if k' = k then (k', f x) :: r else", "| (k', x) :: r => if k' = k then (k', v) :: r else", 'the owned merge overwrites occupied entries', 'the owned merge is the same as the borrowed one', 'C06')
M('U12', 'Utils', 'entryMerge', '  | [] => [(k, v)]\n', '  | [] => []\n', 'the owned merge drops new keys', 'last writer wins', 'C06')
M('U13', 'Utils', 'syncHeaders', '| some v => Obj.insert c!"REQUESTED-WITH-AJAX" v (Obj.insert c!"Requested-With-Ajax" v h)', '| some v => Obj.insert c!"Requested-With-Ajax" v h', 'the upper case spelling is not written', 'ajax header in three spellings', 'C07')
M('U14', 'Utils', 'stampVersion', 'a.setIndex c!"version" (.str VERSION)', 'some (match a.get? c!"version" with | some _ => a | none => (a.setIndex c!"version" (.str VERSION)).getD a)', 'an existing version is kept, no panic on scalars', 'version is stamped', 'C07', 'C08')
M('U15', 'Utils', 'scanBif', "      else if d = '}' then\n        if 0 < nested then scanBif", "      else if d = '}' then\n        if 1 < nested then scanBif", 'a BIF with one nested BIF is closed at the inner delimiter', 'blocks are balanced', 'C14', 'C15')
M('U16', 'Utils', 'scanBif', "      if prev = '{' then scanBif c (nested + 1) (pos + 1) (d :: r)\n", "      if prev = '{' then scanBif c nested (pos + 1) (d :: r)\n", 'nested BIFs are not counted', 'blocks are balanced', 'C14', 'C15')
M('U17', 'Utils', 'scanComment', "      if prev = '{' ∧ d = '*' then scanComment c (nested + 1)", "      if prev = '{' ∧ d = '*' then scanComment c nested", 'nested comments are not counted', 'comments are blocks', 'C14', 'C17')
M('U18', 'Utils', 'scanBlock', "  | '*' :: _ => scanComment ':' 0 pos body\n", '', 'comments are scanned like BIFs', 'a comment may contain any text', 'C14', 'C17')
M('U19', 'Utils', 'checkGaps', '  | [] => (find c!":}" (src.drop prevEnd)).map (fun p => prevEnd + p)', '  | [] => none', 'a stray :} after the last block is accepted', 'unmatched closing delimiter is reported', 'C14', 'C29')
M('U20', 'Utils', 'extractBlocks', '  | some p => .error p\n  | none => .ok blocks', '  | some _ => .ok blocks\n  | none => .ok blocks', 'stray :} never reported', 'unmatched closing delimiter is reported', 'C14', 'C29')
M('U21', 'Utils', 'scanBlocks', '| some e => (pos, e) :: scanBlocks (pos + 1) (e - pos - 1) r', '| some e => (pos, e) :: scanBlocks (pos + 1) (e - pos) r', 'the character after a block is skipped', 'adjacent blocks are found', 'C14', 'C15')
M('U22', 'Utils', 'resolveStep', '  | .arr a => (parseU64 part).bind (fun i => a[i]?)', '  | .arr a => (parseU64 part).bind (fun i => a[i - 1]?)', 'array indices start at 1', 'paths resolve to the stored value', 'C09')
M('U23', 'Utils', 'resolveGo', '''      else (resolveStep cur part.reverse).bind (fun v => resolveGo v [] r)
    else''', '''      else (resolveStep cur part).bind (fun v => resolveGo v [] r)
    else''', 'segments before / are reversed', 'paths resolve to the stored value', 'C09')
M('U24', 'Utils', 'resolvePointer', 'if !contains c!"->" key && !contains c!"/" key then', 'if !contains c!"->" key || !contains c!"/" key then', 'a path with only one kind of separator is taken as a plain key', 'paths resolve to the stored value', 'C09')
M('U25', 'Utils', 'boolVal', '  | .num (.int i) => decide (0 < i)', '  | .num (.int i) => decide (0 ≤ i)', '0 is true', 'truth tests', 'C11')
M('U26', 'Utils', 'boolVal', '    if s.isEmpty || s == c!"false" then false', '    if s == c!"false" then false', '"" is true when it is no number', 'truth tests agree', 'C11')
M('U27', 'Utils', 'emptyVal', '  | .bool _ => false\n\n/-- `is_empty_key` (src/utils.rs:313-326)', '  | .bool b => !b\n\n/-- `is_empty_key` (src/utils.rs:313-326)', 'false is empty', 'truth tests', 'C11')
M('U28', 'Utils', 'isDefinedKey', '| some v => !v.isNull\n', '| some _ => true\n', 'null is defined', 'truth tests', 'C11')
M('U29', 'Utils', 'arrayVal', '  | .obj _ => true\n  | .arr _ => true', '  | .obj _ => false\n  | .arr _ => true', 'objects are not arrays', 'truth tests', 'C11')
M('U30', 'Utils', 'codePosGo', "      if level = 0 then some pos else", "      if level ≤ 0 then some pos else", '>> accepted at negative level', 'the separator is the first top-level >>', 'C18')
M('U31', 'Utils', 'codePosGo', "    else if c = ':' ∧ d = '}' then codePosGo (level - 1) (pos + 1) true (d :: r)", "    else if c = ':' ∧ d = '}' then codePosGo 0 (pos + 1) true (d :: r)", 'any closing delimiter resets the level', 'the separator is the first top-level >>', 'C18')
M('U32', 'Utils', 'scanRC', "        else .closed nested (pos + 2)", "        else .closed nested (pos + 1)", 'remove_comments leaves the final brace', 'comments are removed entirely', 'C16')
M('U33', 'Utils', 'matchRec', "      | e :: rest', c :: cs => matchRec rest' cs && decide (c = e)", "      | _ :: rest', _ :: cs => matchRec rest' cs", 'an escaped character matches anything', 'wildcard specification', 'C12')
M('U34', 'Utils', 'matchRec', "    else if p = '~' then t.isEmpty", "    else if p = '~' then t.isEmpty && rest.isEmpty", '~ only at the end of the pattern', 'wildcard specification', 'C12')
M('U35', 'Utils', 'starMatch', '  | c :: cs => f (c :: cs) || starMatch f cs', '  | _ :: cs => starMatch f cs', '* must reach the end of the text', 'wildcard specification', 'C12')
M('U36', 'Utils', 'matchRec', '''      matchRec rest t || (match t with
        | [] => false
        | _ :: cs => matchRec rest cs)''', '''      (match t with
        | [] => false
        | _ :: cs => matchRec rest cs)''', '. needs exactly one character', 'wildcard specification', 'C12')
M('U37', 'Utils', 'findTagPosition', '      | some q => some (p + q + 1)', '      | some q => some (p + q)', 'moveto inserts before the > of an opening tag', 'moveto insertion position', 'C37')
M('U38', 'Utils', 'findTagPosition', '    else some p', '    else some (p + 1)', 'moveto inserts one character late at a closing tag', 'moveto insertion position', 'C37')
M('U39', 'Utils', 'stripPrefixSuffix', '    | none => s\n    | some x => x', '    | none => r\n    | some x => x', 'prefix stripped although the suffix is missing', 'only whole BIFs are unwrapped (unreachable: blocks always have both)', )
M('U40', 'Utils', 'scalarText', '  | .bool b => showBool b\n  | .num n => showNum F n\n  | .str s => s\n  | _ => []', '  | .bool b => if b then c!"1" else []\n  | .num n => showNum F n\n  | .str s => s\n  | _ => []', 'booleans print 1 or nothing', 'a variable prints its value', 'C25')

# ---- State
M('S01', 'State', 'createBlockSchema', 'let bid := if inh.blockCount < 1 then c!"block_1" else blockId inh.blockCount', 'let bid := if inh.blockCount < 2 then c!"block_1" else blockId (inh.blockCount - 1)', 'the scope copy is made under the parent\'s number', 'block scope isolation', 'C24')
M('S02', 'State', 'createBlockSchema', '    if inh.indir ≠ bid then\n', '    if inh.indir = bid then\n', 'copy on write is skipped', 'block scope isolation keeps inherited values', 'C10')
M('S03', 'State', 'updateIndir', '''  | some v => { sh with indir := fun x => if x = target then some v else sh.indir x }
  | none => sh

/-- `Drop''', '''  | some _ => sh
  | none => sh

/-- `Drop''', 'a scope-inheriting block does not copy back', 'include definitions reach the parent', 'C24')
M('S04', 'State', 'dropBlock', 'if bid ≠ c!"block_1" ∧ bid = inh.indir then', 'if bid = inh.indir then', 'the root block is dropped', 'definitions of the first pass survive', 'C24')
M('S05', 'State', 'pushError', '(.arr (a ++ [.str line]))', '(.arr [.str line])', 'only the last error is kept', 'errors are never lost', 'C22')
M('S06', 'State', 'pushError', '{ sh with schema := schema, hasError := true }', '{ sh with schema := schema }', 'has_error not set', 'has_error iff an error was recorded', 'C22')
M('S07', 'State', 'statusCodes', '(c!"404", c!"Not Found")', '(c!"404", c!"Forbidden")', 'wrong text for 404', 'status text corresponds to the code', 'C53')
M('S08', 'State', 'Shared.modIndir', 'if x = k then some v else sh.indir x })', 'if x = k then some v else none })', 'writing one scope forgets the others', 'block scope isolation', 'C24')

# ---- Prog
M('P01', 'Prog', 'childInherit', '    alias := s.b.alias\n', '', 'children do not see the alias of their BIF', 'coalesce stops, param can be set in code', 'C35', 'C68')
M('P02', 'Prog', 'childInherit', '    blockCount := s.inh.blockCount + 1 }', '    blockCount := s.inh.blockCount }', 'the child shares the block number of its parent', 'block scope isolation', 'C24')
M('P03', 'Prog', 'runChild', 'let sh3 := if scope then updateIndir sh2 ci2.indir p.2.indir else sh2', 'let sh3 := updateIndir sh2 ci2.indir p.2.indir', 'definitions always leak to the parent', 'block scope isolation', 'C24')
M('P04', 'Prog', 'runChild', '.ok out { s with sh := dropBlock sh3 ci2, inh := p.2 }', '.ok out { s with sh := dropBlock sh3 ci2, inh := ci2 }', 'the parent continues with the child\'s inherit', 'block scope isolation', 'C24')
M('P05', 'Prog', 'handleUnmatched', '''    statusCode := c!"500"
''', '''    statusCode := c!"400"
''', 'unmatched block gives 400', 'unmatched is reported as 500', 'C29')
M('P06', 'Prog', 'parseSrc', '| .error p => .ok [] (handleUnmatched sh (byteLen (src.take p))) inh', '| .error p => .ok src (handleUnmatched sh (byteLen (src.take p))) inh', 'text with an unmatched :} is printed', 'unmatched gives no output of that block', 'C29')
M('P07', 'Prog', 'step', '    .ok () { s with sh := { s.sh with statusCode := code, statusParam := param, statusText := statusTextOf code } }', '    .ok () { s with sh := { s.sh with statusCode := code, statusParam := param } }', 'the status text is not updated', 'status text corresponds to the code', 'C53')
M('P08', 'Prog', 'step', '| .pushFile .incl p, s => .ok () { s with inh := { s.inh with includeFiles := s.inh.includeFiles ++ [p] } }', '| .pushFile .incl p, s => .ok () { s with inh := { s.inh with includeFiles := [p] } }', 'only the last included file is remembered', 'include once', 'C52')
M('P09', 'Prog', 'step', 'oresOpt ((s.sh.modIndir s.inh.indir (fun x => x.modIndex sec (fun y => some (mergeSchemaOwned y v)))).map', 'oresOpt ((s.sh.modIndir s.inh.indir (fun x => x.setIndex sec v)).map', 'data/locale replace the section', 'loaded data is merged', 'C54', 'C57')
M('P10', 'Prog', 'step', '| .setExit b, s => .ok () { s with sh := { s.sh with exit := b } }', '| .setExit _, s => .ok () s', 'exit does not set the flag', 'exit stops evaluation', 'C23')
M('P11', 'Prog', 'step', '    oresOpt ((s.sh.schema.modIndex c!"data" (fun d => d.setIndex name v)).map', '    oresOpt ((s.sh.schema.setIndex name v).map', 'data written at the top of the schema', 'templates cannot change configuration', 'C21')
M('P12', 'Prog', 'run', '''    | .ok r s' => run R (k r) s'
''', '''    | .ok r _ => run R (k r) s
''', 'state changes of operations are dropped', 'everything', 'C23', 'C36', 'C10')

# ---- Bifs
M('B01', 'Bifs', 'bifVar', 'if (s.b.modFilter || s.sh.filterAll) && !s.b.modNegate then', 'if s.b.modFilter && !s.b.modNegate then', 'filter_all is ignored', 'filter_all escapes every variable', 'C25')
M('B02', 'Bifs', 'bifVar', 'if !startsWith c!"CONTEXT->" varName then reescape true out0 else out0', 'reescape false out0', 'braces are not escaped by the filter modifier', 'variable output cannot inject code', 'C25', 'C26')
M('B03', 'Bifs', 'bifVar', '      else if s.sh.filterBifs then sanitizeBifs out0\n', '', 'unfiltered variables keep BIF delimiters', 'variable output cannot inject code', 'C25', 'C26')
M('B04', 'Bifs', 'bifVar', '        requireAllow s.b.src c!"insecure varname"\n', '', 'dynamic variable names need no allow', 'dynamic variable names require allow', 'C27')
M('B05', 'Bifs', 'sanitizeBifs', 'replaceAll bifClose c!":&#125;" (replaceAll bifOpen c!"&#123;:" s)', 'replaceAll bifOpen c!"&#123;:" s', 'only the opening delimiter is sanitised', 'variable output cannot inject code', 'C25')
M('B06', 'Bifs', 'getData', '  | some r => getFromKey env.f64 (localDataOf s) r\n', '  | some r => getFromKey env.f64 (dataOf s) r\n', 'local:: reads global data', 'a variable prints the value at its path', 'C25')
M('B07', 'Bifs', 'containsAllow', 'if contains c!"{:allow;" source || contains c!"{:!allow;" source then some true', 'if contains c!"allow" source then some true', 'any occurrence of the word allow is enough', 'dynamic variable names require allow', 'C27')
M('B08', 'Bifs', 'extractParamsCode', 'code := trim (b.src.drop (p + 2)) }', 'code := trim (b.src.drop (p + 1)) }', 'the code starts with the second >', 'the code is the text after >>', 'C33')
M('B09', 'Bifs', 'extractParamsCode', '    perform (.setFlags [])\n', '', 'flags of an earlier BIF leak', 'flags are those of this BIF', 'C44')
M('B10', 'Bifs', 'argLoop', 'return x :: xs', 'return xs ++ [x]', 'arguments reversed', 'argument order', 'C33', 'C49')
M('B11', 'Bifs', 'badFlag', 'find? (fun f => !(allowed.contains f))', 'find? (fun f => allowed.contains f)', 'flag check inverted', 'safe code is inert', 'C44')
M('B12', 'Bifs', 'hashPath', "  | '#' :: r => s.inh.currentDir ++ r", "  | '#' :: r => r", '# is the working directory', 'file names relative to the current directory', 'C54', 'C52')
M('B13', 'Bifs', 'allowOut', 'if xor (!found.isEmpty) negate then', 'if !found.isEmpty then', 'negation ignored by allow', 'allow only lets listed text through', 'C13')
M('B14', 'Bifs', 'allowPattern', 'if contains c!"|partial|" flags || contains c!"|replace|" flags then c!"*" ++ word ++ c!"*" else word', 'c!"*" ++ word ++ c!"*"', 'allow always matches partially', 'allow only lets listed text through', 'C13')
M('B15', 'Bifs', 'allowFind', '(words.find? (fun w => wildcardMatch (allowHaystack env flags code) (allowPattern env flags w))).getD []', '(words.find? (fun w => wildcardMatch (allowPattern env flags w) (allowHaystack env flags code))).getD []', 'arguments of wildcard_match swapped', 'allow only lets listed text through', 'C13')
M('B16', 'Bifs', 'bifAllow', '    let x ← childParse s.b.code s.b.modScope\n    setCode x\n    let s ← getSt\n    setOut (allowOut env', '    let x ← childParse s.b.code s.b.modScope\n    let s ← getSt\n    setCode x\n    setOut (allowOut env', 'allow tests the unevaluated code', 'allow only lets listed text through', 'C13')
M('B17', 'Bifs', 'condBif', 'if xor (test st.1 st.2) s.b.modNegate then do', 'if test st.1 st.2 then do', 'negation ignored by conditions', '! is the complement', 'C33')
M('B18', 'Bifs', 'condBif', '  let st := storageOf s s.b.params\n  if xor', '  let st := storageOf s s.b.code\n  if xor', 'conditions test the code', 'conditions test their parameter', 'C33')
M('B19', 'Bifs', 'bifFilled', 'condBif (fun v k => !isEmptyKey v k)', 'condBif isBoolKey0', 'filled is bool', 'filled tests for content', 'C33')
M('B20', 'Bifs', 'bifCoalesce', '  perform (.setLastCoalesce false)\n', '', 'coalesce does not reset its state', 'coalesce evaluates up to the first output', 'C35')
M('B21', 'Bifs', 'bifCode', '    if hasFlag s.b c!"noparse" then .pure () else parseCode s.b.modScope)', '    parseCode s.b.modScope)', 'noparse ignored', 'noparse code is not evaluated', 'C70')
M('B22', 'Bifs', 'bifCode', '(if hasFlag s.b c!"safe" then setCode (sanitizeBifs (reescape false s.b.code))', '(if hasFlag s.b c!"safe" then setCode (reescape false s.b.code)', 'safe code keeps BIF delimiters', 'safe code is inert', 'C44')
M('B23', 'Bifs', 'cmpBif', 'if xor (test a b) s.b.modNegate then do', 'if xor (test b a) s.b.modNegate then do', 'arguments of contains swapped', 'contains tests the first for the second', 'C33')
M('B24', 'Bifs', 'i32Add', '  else some ((r + 2 ^ 31) % 2 ^ 32 - 2 ^ 31)', '  else some r', 'no wrap-around in count', 'counters stay in range', 'C103')
M('B25', 'Bifs', 'dataPart', '(v.get? c!"data").getD .null', '(v.get? c!"data").getD v', 'a document without data key is merged as a whole', 'only the data part of a document is loaded (C54_wiped documents the present behaviour)', 'C54')
M('B26', 'Bifs', 'mergeJson', '    perform .createBlockSchema\n    perform (.mergeIndir sec (part v))', '    perform (.mergeIndir sec (part v))', 'data writes into the parent scope', 'block scope isolation', 'C24')
M('B27', 'Bifs', 'bifData', 'if s.b.modNegate && s.inh.dataFiles.contains canon then setOut unprintable\n      else do\n        perform (.pushFile .data canon)', 'if s.inh.dataFiles.contains canon then setOut unprintable\n      else do\n        perform (.pushFile .data canon)', 'data never loads twice', 'data loads the file', 'C54')
M('B28', 'Bifs', 'bifLocale', '        mergeJson env c!"locale" id text\n        setOut unprintable', '        mergeJson env c!"trans" id text\n        setOut unprintable', 'locale files are merged into the wrong section', 'translations are merged', 'C57')
M('B29', 'Bifs', 'bifDate', '  else match env.utcFormat t s.b.src with', '  else match env.utcFormat t s.b.code with', 'date formats the evaluated code', 'date formats the raw text', 'C73')
M('B30', 'Bifs', 'bifDeclare', '  if contains c!"snippet" s.inh.currentFile then do\n    perform .createBlockSchema\n    (if contains bifOpen s.b.code then do', '  if true then do\n    perform .createBlockSchema\n    (if contains bifOpen s.b.code then do', 'declare allowed everywhere', 'declare only in snippet files', 'C71')
M('B31', 'Bifs', 'eachIter', '  perform (.setData keyName (.str key))\n  perform (.setData valName val)', '  perform (.setData valName (.str key))\n  perform (.setData keyName val)', 'key and value swapped in each', 'each binds key and value', 'C36')
M('B32', 'Bifs', 'bifEach', '        perform (.setData keyName restoreKey)\n        perform (.setData valName restoreVal)', '        perform (.setData keyName restoreKey)', 'the value variable is not restored', 'loops restore their variables', 'C36')
M('B33', 'Bifs', 'eachIter', '{ b with out := b.out ++ x })\n\n/-- The elements', '{ b with out := x })\n\n/-- The elements', 'each prints only the last round', 'each prints every round', 'C36')
M('B34', 'Bifs', 'forValues', 'if a > b then (intRange b a).reverse else intRange a b', 'if a > b then intRange b a else intRange a b', 'descending for counts upwards', 'for visits a..b', 'C36')
M('B35', 'Bifs', 'intRange', '(List.range (b - a + 1).toNat)', '(List.range (b - a).toNat)', 'for misses the last value', 'for visits a..b', 'C36')
M('B36', 'Bifs', 'bifFor', '            setData varName restore\n', '            setData varName []\n', 'for clears its variable', 'loops restore their variables', 'C36')
M('B37', 'Bifs', 'bifElse', 'if xor s.inh.lastBifOut s.b.modNegate then setOut []', 'if s.inh.lastBifOut then setOut []', '!else is else', 'else is the complement', 'C34')
M('B38', 'Bifs', 'bifEval', '      setData c!"__eval__" restore\n', '', '__eval__ not restored', 'eval restores __eval__', 'C58')
M('B39', 'Bifs', 'outUncached', 'setOut (if s.inh.inCache then', 'setOut (if !s.inh.inCache then', 'inCache inverted', 'exit works in cached blocks', 'C23')
M('B40', 'Bifs', 'bifExit', '(if s.b.params.isEmpty then c!"200" else s.b.params)', '(if s.b.params.isEmpty then c!"200" else s.b.code)', 'exit takes the status from the code', 'exit status', 'C23')
M('B41', 'Bifs', 'bifExit', 'perform (.setExit (!s.b.modNegate))\n\n/-- `DIV', 'perform (.setExit s.b.modNegate)\n\n/-- `DIV', 'exit and !exit swapped', 'exit stops evaluation', 'C23')
M('B42', 'Bifs', 'bifFetch', '  if !s.sh.disableJs && !s.sh.alreadyJs then do', '  if !s.sh.disableJs then do', 'the script is emitted every time', 'fetch script at most once', 'C46')
M('B43', 'Bifs', 'bifFetch', '  if !s.sh.disableJs && !s.sh.alreadyJs then do', '  if !s.sh.alreadyJs then do', 'disable_js ignored', 'no script when disabled', 'C46')
M('B44', 'Bifs', 'bifInclude', '        perform (.pushFile .incl canon)\n', '', 'included files are not remembered', 'include once', 'C52')
M('B45', 'Bifs', 'bifInclude', 'if s.b.modNegate && s.inh.includeFiles.contains canon then setOut []', 'if s.inh.includeFiles.contains canon then setOut []', 'plain include includes once', 'include includes', 'C52')
M('B46', 'Bifs', 'bifInclude', '        setCode (sanitizeBifs (reescape false raw))', '        setCode (reescape false raw)', 'safe include keeps BIF delimiters', 'safe code is inert', 'C44')
M('B47', 'Bifs', 'joinValue', 'joinStr sep (o.map (fun kv => joinText env kv.2))', 'joinStr sep (o.map (fun kv => kv.1))', 'join prints keys instead of values', 'join', 'C59')
M('B48', 'Bifs', 'bifMoveto', '(env.md5 (replaceAll c!" " [] (replaceAll c!"\\n" [] s.b.code)))', '(env.md5 s.b.params)', 'moveto keyed by the tag', 'each distinct code is moved', 'C37')
M('B49', 'Bifs', 'bifParam', '    if s.inh.alias = c!"code" then do', '    if s.inh.alias ≠ c!"code" then do', 'param settable only outside code', 'param set in code is readable', 'C10')
M('B50', 'Bifs', 'bifRand', '            if x > y then bifError', '            if x ≥ y then bifError', 'rand x..x rejected', 'rand respects its range', 'C48')
M('B51', 'Bifs', 'bifRand', 'setOut (showInt (env.randRange t x y))', 'setOut (showInt (env.randRange t x (y + 1)))', 'rand upper bound off by one', 'rand respects its range', 'C48')
M('B52', 'Bifs', 'redirectPlan', '(if code.isEmpty then .error c!"this redirection requires URL" else .ok (params, none))', '.ok (params, none)', 'redirect without URL', 'redirect requires a URL', 'C41')
M('B53', 'Bifs', 'redirectPlan', '''    else if !contains c!"js:reload:self" code || !contains c!"js:reload:top" code then
      .error c!"status code not allowed"
    else .ok (c!"200", none)''', '''    else .ok (params, none)''', 'any status accepted by redirect', 'redirect accepts only documented types', 'C41')
M('B54', 'Bifs', 'bifReplace', 'setOut (replaceAll a b s.b.code)', 'setOut (replaceAll b a s.b.code)', 'replace swapped', 'replacement', 'C49')
M('B55', 'Bifs', 'bifSnippet', '      perform (.setIndir c!"snippets" s.b.params (.str s.b.code))', '      perform (.setIndir c!"snippets" s.b.code (.str s.b.params))', 'snippet name and body swapped', 'snippets can be played', 'C10')
M('B56', 'Bifs', 'bifSum', 'env.f64.add x y', 'env.f64.add x x', 'sum adds the first argument twice', 'sum adds its arguments', 'C48')
M('B57', 'Bifs', 'bifTrans', '(if s.b.modNegate then [] else s.b.src)', 's.b.src', '!trans falls back to the text', 'trans fallback', 'C45')
M('B58', 'Bifs', 'getTrans', '.index s.sh.lang) text', '.index c!"en") text', 'always the English translation', 'translation in the current language', 'C45')
M('B59', 'Bifs', 'cacheId', 'id ++ s.sh.lang ++ expires', 'id ++ expires', 'language not in the cache key', 'cached text of another language is not served', 'C38')
M('B60', 'Bifs', 'cacheId', '      ++ (if hasCookies then env.jsonShow (ctx.index c!"COOKIES") else [])\n', '', 'cookies not in the cache key', 'cached text of another user is not served', 'C38')
M('B61', 'Bifs', 'cacheOff', '(hasPost && !sh.cacheOnPost)', '(hasPost && !sh.cacheOnGet)', 'wrong switch for POST', 'POST requests are not cached unless configured', 'C38')
M('B62', 'Bifs', 'cacheExpired', 'some (decide (now > mtime + expires))', 'some (decide (now > mtime))', 'cache expires at once', 'a fresh entry is served', 'C38')
M('B63', 'Bifs', 'cacheStore', '      | none => perform (.writeFile file s.b.code (env.now t))', '      | none => perform (.writeFile file s.b.out (env.now t))', 'same text written (equivalent: out = code here)', 'none (equivalent mutant)')
M('B64', 'Bifs', 'cacheStore', '      | none => perform (.writeFile file s.b.code (env.now t))', '      | none => perform (.writeFile dir s.b.code (env.now t))', 'stored in the wrong place', 'a stored entry is found again', 'C38')
M('B65', 'Bifs', 'cacheParse', '    perform (.setInCache true)\n    let x ← childParse s.b.code s.b.modScope\n    store x\n    perform (.setInCache restore)', '    let x ← childParse s.b.code s.b.modScope\n    store x\n    perform (.setInCache restore)', 'in_cache not set while caching', '!cache blocks are not cached', 'C75')
M('B66', 'Bifs', 'bifCache', '    if s.inh.inCache then setOut s.raw\n', '    if s.inh.inCache then setOut s.b.code\n', '!cache leaves its code without the wrapper', '!cache blocks are evaluated on every request', 'C75')
M('B67', 'Bifs', 'bifBody', '  else if name = c!"declare" then bifDeclare', '  else if name = c!"declare" then bifParam env', 'wrong dispatch', 'declare', 'C10')
M('B68', 'Bifs', 'bifUnknown', '  bifError c!"unknown bif"', '  setOut c!"unknown bif"', 'unknown BIFs print a message', 'unknown BIFs produce no output', 'C42')
M('B69', 'Bifs', 'bifFlg', '(replaceAll c!" " c!"|" (c!" " ++ s.b.code ++ c!" "))', '(replaceAll c!" " c!"|" s.b.code)', 'flags without outer bars', 'a written flag is seen', 'C44')
M('B70', 'Bifs', 'extractArgs', '| d :: r => argLoop (splitChar d (d :: r))', '| d :: r => argLoop (splitChar d r)', 'the leading delimiter gives no empty argument', 'argument positions', 'C33', 'C49')

# ---- Interp
M('I01', 'Interp', 'setModifiers', "    else if c = '+' then setModifiers { b with modScope := true } r", "    else if c = '+' then setModifiers { b with modUpline := true } r", '+ sets upline', '+ shares the scope', 'C35')
M('I02', 'Interp', 'bifFinish', '{ s.inh with lastBifOut := ne, lastCoalesceOut := ne }', '{ s.inh with lastBifOut := ne }', 'coalesce never learns of output', 'coalesce stops', 'C35')
M('I03', 'Interp', 'bifFinish', 'let ne := !s.b.out.isEmpty', 'let ne := s.b.out.isEmpty', 'else inverted', 'else is the complement', 'C34')
M('I04', 'Interp', 'runBif', 'if sh.count + 1 > sh.max then', 'if sh.count > sh.max then', 'one BIF too many allowed', 'bounded by infinite_loop_max_bifs', 'C19')
M('I05', 'Interp', 'runBif', '{ sh with count := sh.count + 1 }', 'sh', 'BIFs are not counted', 'bounded by infinite_loop_max_bifs', 'C19')
M('I06', 'Interp', 'blocksGo', '    if sh.exit then .ok out sh inh\n    else\n', '', 'exit ignored by the block loop', 'exit stops evaluation', 'C23')
M('I07', 'Interp', 'blocksGo', 'if startsWith c!"{:*" (slice src s e) ||', 'if ', 'comments are evaluated', 'comments are never executed', 'C17')
M('I08', 'Interp', 'blocksGo', '(inh.lastCoalesceOut && inh.alias = c!"coalesce")', 'inh.lastCoalesceOut', 'every block acts like coalesce', 'BIFs after an output are evaluated', 'C68', 'C77')
M('I09', 'Interp', 'blocksGo', 'let out1 := if prevEnd < s then out ++ slice src prevEnd s else out', 'let out1 := if prevEnd + 1 < s then out ++ slice src prevEnd s else out', 'a single character between BIFs is lost', 'plain text is unchanged', 'C28')
M('I10', 'Interp', 'bifParse', '      | some _ => .ok [] (pushError sh (oneLine', '      | some _ => .ok raw (pushError sh (oneLine', 'malformed BIFs are printed', 'malformed BIFs produce no output', 'C42')
M('I11', 'Interp', 'bifResult', '      bifFinish { s with sh := pushError sh1 (errorLine (env.localTime s.sh.w.tick) e) }', '      bifFinish { s with sh := sh1 }', 'errors of BIFs are not recorded', 'errors are never lost', 'C22', 'C42')
M('I12', 'Interp', 'bifParse', 'if !only.isEmpty && !contains only name && !inh.inOnly then .ok raw sh inh\n    else match', 'if !only.isEmpty && !contains only name then .ok raw sh inh\n    else match', 'BIFs inside !cache are not evaluated in the second pass', '!cache blocks are evaluated', 'C38')
M('I13', 'Interp', 'bifFinish', '(if s.b.modUpline then backspace ++ s.b.out else s.b.out)', '(if s.b.modUpline then s.b.out ++ backspace else s.b.out)', 'upline mark after the output', 'upline removes preceding white space', 'C69')

# ---- Template
M('T01', 'Template', 'Shared.new', '      exit := false\n', '      exit := true\n', 'renders start exited', 'render evaluates', 'C77')
M('T02', 'Template', 'Shared.new', 'cacheOnGet := isBoolKey env.f64 cfg c!"cache_on_get"', 'cacheOnGet := isBoolKey env.f64 cfg c!"cache_on_post"', 'wrong configuration key', 'configuration is honoured', 'C82')
M('T03', 'Template', 'Shared.new', 'filterAll := isBoolKey env.f64 cfg c!"filter_all"', 'filterAll := false', 'filter_all never read', 'filter_all escapes every variable', 'C82')
M('T04', 'Template', 'Shared.new', 'filterBifs := !cacheDisable', 'filterBifs := cacheDisable', 'BIF sanitising inverted', 'rendered data is never evaluated', 'C26')
M('T05', 'Template', 'filterContext', 'some (filterValueKeys (filterValue c))', 'some (filterValueKeys c)', 'CONTEXT values are not filtered', 'CONTEXT is sanitised', 'C04')
M('T06', 'Template', 'initShared', '''bind (fun s => s.setIndex c!"__error" (.arr [])) with
    | none => .error .index
    | some schema1 =>
      match filterContext schema1 with
      | none => .error .index
      | some schema2 =>
        .ok (raw',
          { p.1 with
            schema := schema2
            indir := fun x => if x = p.2.indir then some (schema1.index c!"inherit") else none },
          { p.2 with
            currentFile := filePath
            currentDir := if filePath.isEmpty then p.1.workingDir else (env.parent filePath).getD p.2.currentDir })

/-- The part of `init_render_once`''', '''bind some with
    | none => .error .index
    | some schema1 =>
      match filterContext schema1 with
      | none => .error .index
      | some schema2 =>
        .ok (raw',
          { p.1 with
            schema := schema2
            indir := fun x => if x = p.2.indir then some (schema1.index c!"inherit") else none },
          { p.2 with
            currentFile := filePath
            currentDir := if filePath.isEmpty then p.1.workingDir else (env.parent filePath).getD p.2.currentDir })

/-- The part of `init_render_once`''', 'the error list is not reset', 'errors are those of the last render', 'C22', 'C30')
M('T07', 'Template', 'cacheLoop', "      | .ok out' sh' _ => cacheLoop env inh n sh' out'", "      | .ok out' _ _ => cacheLoop env inh n sh out'", 'effects of the second pass are lost', 'exit in !cache takes effect', 'C23')
M('T08', 'Template', 'movetoInsert', '| some p => out.take p ++ text ++ out.drop p', '| some p => out.take p ++ text ++ out.drop (p + 1)', 'moveto eats a character', 'moveto keeps the document', 'C37')
M('T09', 'Template', 'dropMark', '    | none => c :: dropMark mark 0 r', '    | none => c :: dropMark mark 1 r', 'every second character lost', 'output without marks is unchanged', 'C47')
M('T10', 'Template', 'replacements', 'replaceAll unprintable [] (dropBackspace 0 out)', 'dropBackspace 0 out', 'unprintable marks are kept', 'marks never reach the user', 'C47')
M('T11', 'Template', 'finalOut', 'strLe c!"400" sh.statusCode && strLe sh.statusCode c!"599"', 'strLe c!"401" sh.statusCode && strLe sh.statusCode c!"599"', '400 keeps the content', 'error statuses replace the content', 'C40')
M('T12', 'Template', 'finalOut', 'strLe c!"400" sh.statusCode && strLe sh.statusCode c!"599"', 'strLe c!"400" sh.statusCode', '600 wipes the content', 'other statuses keep the content', 'C40')
M('T13', 'Template', 'finalOut', 'sh.statusCode ++ c!" " ++ sh.statusText ++ c!"\\n" ++ sh.statusParam', 'sh.statusCode ++ c!" " ++ sh.statusText', 'redirect output without URL', 'redirect output', 'C40')
M('T14', 'Template', 'Tpl.render', '  if !contains bifOpen t.raw then .ok { t with out := trim t.raw }\n  else renderWith', '  if !contains bifOpen t.raw then .ok { t with out := t.raw }\n  else renderWith', 'fast path does not trim', 'render_once equals render', 'C30', 'C28')
M('T15', 'Template', 'Tpl.renderOnce', 'else renderOnceWith env n t .null (Shared.new env w t.schema)', 'else renderOnceWith env n t .null (Shared.new env w .null)', 'render_once uses the emptied schema', 'render_once equals render', 'C30')
M('T16', 'Template', 'Tpl.render', 'else renderWith env n t t.schema (Shared.new env w t.schema)', 'else renderWith env n t .null (Shared.new env w t.schema)', 'render consumes the schema', 'render can be repeated', 'C31')
M('T17', 'Template', 'movetoTag', "  let tag := if startsWith c!\"<\" key then key else '<' :: key", "  let tag := key", 'tag name without < is searched as text', 'moveto tag', 'C37')
M('T18', 'Template', 'Tpl.fromFileValue', 'match updateSchemaOwned defaultSchema v, Shared.new env w defaultSchema with', 'match some v, Shared.new env w defaultSchema with', 'from_file_value ignores the default schema', 'constructor merges onto the defaults', 'C60')

# ---- FastCgi
M('F01', 'FastCgi', 'header', 'UInt8.ofNat ((len >>> 8) &&& 0xFF), UInt8.ofNat (len &&& 0xFF),', 'UInt8.ofNat (len &&& 0xFF), UInt8.ofNat ((len >>> 8) &&& 0xFF),', 'length bytes swapped', 'framing', 'C50')
M('F02', 'FastCgi', 'writeRecord', 'let pad := (8 - (content.length % 8)) % 8', 'let pad := 8 - (content.length % 8)', 'padding of 8 for aligned records', 'framing (any padding < 256 is legal; the spec fixes the size)', 'C50')
M('F03', 'FastCgi', 'writeLength', 'if len < 128 then', 'if len < 256 then', 'one byte length up to 255', 'framing', 'C50')
M('F04', 'FastCgi', 'writePair', 'return a ++ b ++ name ++ value', 'return a ++ name ++ b ++ value', 'length fields misplaced', 'framing', 'C50')
M('F05', 'FastCgi', 'readRound', 'else if type = 7 then .next s out (err ++ content)', 'else if type = 7 then .next s (out ++ content) err', 'stderr mixed into stdout', 'response', 'C50')
M('F06', 'FastCgi', 'readRound', 'if be16 i1 i0 ≠ 1 then .next s out err', 'if False then .next s out err', 'records of other requests accepted', 'response', 'C50')
M('F07', 'FastCgi', 'short', '.error c!"failed to fill whole buffer"', '.ok (out, err)', 'empty answers accepted', 'a cut answer is an error', 'C56')
M('F08', 'FastCgi', 'sendRequest', '  let w ← writeRecord fail 5 1 [] w\n', '', 'stdin is not terminated', 'framing', 'C50')
M('F09', 'FastCgi', 'httpBody', '''  | none =>
    match splitOnce ['\\n', '\\n'] s with
    | some (_, r) => r
    | none => s''', '''  | none => s''', 'headers with bare newlines kept', 'body', 'C50')
M('F10', 'FastCgi', 'execPhp', 'if !(trim err).isEmpty then .error', 'if (trim err).isEmpty then .error', 'stderr test inverted', 'errors of PHP are reported', 'C50')

# ---- CacheFs
M('X01', 'CacheFs', 'step', 'some { s.go p (.writing 0) with file := some ([], s.now) }', 'some { s.go p (.writing 0) with file := some ((s.file.map (·.1)).getD [], s.now) }', 'the file is not truncated', 'cache files are complete', 'C39')
M('X02', 'CacheFs', 'step', 'if t > m + c.life then .evaluating else .opening', 'if t > m + c.life then .opening else .evaluating', 'expired entries are served', 'cache', 'C39')
M('X03', 'CacheFs', 'readEnd', '.done (if c.valid acc then acc else if c.bifs p then c.text p else [])', '.done acc', 'invalid text is returned', 'origin of the output', 'C39')
M('X04', 'CacheFs', 'writeAt', 'f.take off ++ List.replicate (off - f.length) 0 ++ chunk ++ f.drop (off + chunk.length)', 'f ++ chunk', 'appending instead of writing at an offset (equal for a single writer)', 'origin of the output', 'C39')
M('X05', 'CacheFs', 'step', '| .createFails p => match s.phase p with\n    | .evaluating => some (s.go p (.done (c.text p)))', '| .createFails p => match s.phase p with\n    | .evaluating => some (s.go p (.done []))', 'nothing printed when the cache cannot be written', 'output when storing fails', 'C39')

# ---- second series: properties C57 - C82
# Python
M('N01', 'Python', 'importModule', '| some _ => .ok I\n  | none =>\n    match I.path', '| some _ => .error c!"loaded"\n  | none =>\n    match I.path', 'a loaded module cannot be used again', 'a Python object runs its own script', 'C62')
M('N02', 'Python', 'setAttrs', 'if n = name then (I.modules n).map f else I.modules n }', '(I.modules n).map f }', 'attributes are written to every module', 'the schema of another call is not seen', 'C63')
M('N03', 'Python', 'tstep', '(fun m => { m with schema := none }), { t with pc := .setSchema })', '(fun m => m), { t with pc := .setSchema })', 'the old schema is not deleted', 'the schema of an earlier call is not seen', 'C63')
M('N04', 'Python', 'tstep', '(fun m => { m with data := none }), { t with pc := .setData })', '(fun m => m), { t with pc := .setData })', 'the old schema data are not deleted', 'the data of an earlier call are not seen', 'C63')
M('N05', 'Python', 'tstep', '(fun m => { m with data := some v })', '(fun m => { m with schema := some v })', 'schema_data assigned to the schema attribute', 'a Python object sees what it asked for', 'C63')
M('N06', 'Python', 'tstep', '| some m =>\n      if S.defines m.file t.args.callback then', '| some m =>\n      if true then', 'missing functions are called', 'a call of a missing function is an error', 'C62')
M('N07', 'Python', 'tstep', '{ I with path := I.path ++ [S.dir t.args.file] }', '{ I with path := S.dir t.args.file :: I.path }', 'sys.path is searched from the newest directory (a possible fix)', 'C62_refuted describes the code', 'C62')
# objects
M('N08', 'Bifs', 'ensureBridge', 'if fileExists s bridge then .pure ()\n    else do', 'if false then .pure ()\n    else do', 'an existing bridge script is overwritten', 'files changed by a render', 'C61')
M('N09', 'Bifs', 'ensureBridge', 'perform (.writeFile bridge env.bridgeScript (env.now t))', 'perform (.writeFile file env.bridgeScript (env.now t))', 'the bridge is written over the script', 'files changed by a render', 'C61')
M('N10', 'Bifs', 'objEntry', '|| key = c!"params" || recursive then objString x\n', '|| recursive then objString x\n', 'a text in params is not evaluated', 'what obj evaluates', 'C64')
M('N11', 'Bifs', 'objEntry', 'else if key = c!"params" || recursive then (objEntries true o)', 'else if key = c!"params" || recursive then (objEntries false o)', 'params are evaluated only at the first level by name', 'what obj evaluates', 'C64')
M('N12', 'Bifs', 'objCall', '.getD c!"main"', '.getD c!"run"', 'wrong default callback', 'the call of the script', 'C64')
M('N13', 'Bifs', 'objCall', 'then some s.sh.schema else none\n', 'then none else some s.sh.schema\n', 'the schema is given to those who do not ask', 'the call of the script', 'C64')
M('N14', 'Bifs', 'objCode', 'if !isEmptyKey result c!"data" then c!"{:data;{:flg; inline :}>>" ++ env.jsonShow result', 'if !isEmptyKey result c!"data" then c!"{:code;{:flg; inline :}>>" ++ env.jsonShow result', 'the result is evaluated as code', 'the result is data', 'C64')
M('N15', 'Bifs', 'objCode', 'some (pre ++ c!"{:include;" ++ t ++ c!":}" ++ code)', 'some (pre ++ code ++ c!"{:include;" ++ t ++ c!":}")', 'the template comes after the code', 'what obj shows', 'C64')
M('N16', 'Bifs', 'bifObj', 'let engine := env.lower (((obj0.index c!"engine").asStr?).getD c!"python")\n    if engine ≠ c!"python" ∧ engine ≠ c!"php" then', 'let engine := env.lower (((obj0.index c!"engine").asStr?).getD c!"php")\n    if engine ≠ c!"python" ∧ engine ≠ c!"php" then', 'the default engine is PHP', 'the call of the script', 'C64')
M('N17', 'Bifs', 'objSchemaData', 'let st := storageOf s name\n    (resolvePointer st.1 st.2).getD .null)', 'let st := storageOf s name\n    (resolvePointer st.1 st.2).getD st.1)', 'all data given when the key is missing', 'the call of the script', 'C64')
M('N18', 'Bifs', 'bifObj', 'if !fileExists s file then bifError c!"obj script not found"\n      else match', 'if fileExists s file then bifError c!"obj script not found"\n      else match', 'existing scripts are refused', 'the call of the script', 'C64')
# debug
M('N19', 'Bifs', 'debugEnable', 'if s.sh.debugFile.isEmpty then return false', 'if s.sh.debugFile.isEmpty then return true', 'debug on without a debug file', 'debug only with a debug file', 'C65')
M('N20', 'Bifs', 'debugEnable', 'decide (d < s.sh.debugExpire * 1000000000)\n          | none => false', 'decide (d < s.sh.debugExpire * 1000000000)\n          | none => true', 'a debug file from the future enables debug', 'debug only with a fresh debug file', 'C65')
M('N21', 'Bifs', 'debugEnable', 'decide (d < s.sh.debugExpire * 1000000000)', 'decide (d > s.sh.debugExpire * 1000000000)', 'expired debug files enable debug', 'debug only with a fresh debug file', 'C65')
M('N22', 'Bifs', 'debugEnable', 'if !e.isFile then return false', 'if e.isFile then return false', 'a directory enables debug', 'debug only with a regular file', 'C65')
M('N23', 'Bifs', 'bifDebug', 'else if !enabled then do\n    setOut []', 'else if false then do\n    setOut []', 'debug always shows data', 'debug only with a fresh debug file', 'C65')
M('N24', 'Bifs', 'bifDebug', 'setOut (if enabled then unprintable else [])', 'setOut (env.jsonPretty s.sh.schema)', '!debug shows data', '!debug shows no data', 'C65')
# files
M('N25', 'Bifs', 'resolveFilePath', 'requireAllow s.b.code c!"insecure file name"\n    let p', 'let p', 'variable file names need no allow', 'file names from data need an allow list', 'C66')
M('N26', 'Bifs', 'bifInclude', 'if !fileExists s s.b.filePath then\n    (if hasFlag s.b c!"require" then bifError c!"file not found" else .pure ())\n  else do\n    (match', 'if !fileExists s s.b.filePath then\n    (if hasFlag s.b c!"require" then .pure () else bifError c!"file not found")\n  else do\n    (match', 'require inverted by include', 'missing files', 'C67')
M('N27', 'Bifs', 'bifData', '(if hasFlag s.b c!"require" then bifError c!"file not found" else setOut [])', '(if hasFlag s.b c!"require" then bifError c!"file not found" else mergeJson env c!"data" dataPart c!"{}")', 'a missing data file is an empty document without data', 'missing files change nothing', 'C67')
M('N28', 'Bifs', 'bifLocale', '(if hasFlag s.b c!"require" then bifError c!"file not found" else .pure ())\n    else do\n      let canon ← canonUnwrap env s.b.filePath\n      if s.b.modNegate && s.inh.localeFiles', '(bifError c!"file not found")\n    else do\n      let canon ← canonUnwrap env s.b.filePath\n      if s.b.modNegate && s.inh.localeFiles', 'a missing locale file is always an error', 'missing files', 'C67')
M('N29', 'Bifs', 'bifInclude', '      | some d => setDir d\n', '      | some _ => .pure ()\n', 'include does not enter the directory of the file', '# in included files', 'C72')
M('N30', 'Bifs', 'bifInclude', 'else if hasFlag s.b c!"noparse" then do\n        setCode raw\n        outCode\n      else do', 'else if hasFlag s.b c!"noparse" then do\n        setCode raw\n        parseCode false\n        outCode\n      else do', 'noparse ignored by include', 'include noparse', 'C72')
M('N31', 'Bifs', 'bifInclude', '          let x ← childParse raw true\n          setOut x', '          let x ← childParse raw false\n          setOut x', 'definitions of an included file are lost', 'include evaluates in its place', 'C72', 'C77')
M('N32', 'Bifs', 'bifInclude', 'if s.b.modNegate && s.inh.includeFiles.contains canon then setOut []', 'if s.b.modNegate && s.inh.includeFiles.contains s.b.filePath then setOut []', 'the path as written is compared instead of the canonical one', '!include', 'C72')
# data, locale
M('N33', 'Bifs', 'bifLocale', 'let text ← (if !hasFlag s.b c!"noparse" && contains bifOpen raw', 'let text ← (if hasFlag s.b c!"noparse" && contains bifOpen raw', 'noparse inverted by locale', 'locale files', 'C57')
M('N34', 'Bifs', 'bifData', 'mergeJson env c!"data" dataPart s.b.code\n', 'mergeJson env c!"data" id s.b.code\n', 'the whole inline document becomes data', 'data', 'C54')
# eval, join
M('N35', 'Bifs', 'bifEval', 'if xor (!s.b.params.isEmpty) s.b.modNegate then do', 'if xor (!s.b.code.isEmpty) s.b.modNegate then do', 'eval decides by the code', 'eval', 'C58')
M('N36', 'Bifs', 'bifEval', 'setData c!"__eval__" s.b.params\n', 'setData c!"__eval__" s.b.code\n', '__eval__ holds the code', 'eval', 'C58')
M('N37', 'Bifs', 'joinText', '  | .bool b => showBool b\n  | .null => c!"null"', '  | .bool b => showBool b\n  | .null => []', 'null elements are not printed', 'join', 'C59')
M('N38', 'Bifs', 'argTruthy', "!(a = [] || a = c!\"false\" || a = c!\"0\")", "!(a = [] || a = c!\"0\")", 'false is true', 'join keys', 'C59')
# output
M('N39', 'Bifs', 'bifFlg', '(replaceAll c!" " c!"|" (c!" " ++ s.b.code ++ c!" "))', '(c!"|" ++ s.b.code ++ c!"|")', 'two flags are one', 'flags of code', 'C70')
M('N40', 'Bifs', 'bifCode', 'let c1 := if hasFlag s.b c!"encode_tags" then reescape false s.b.code else s.b.code', 'let c1 := if hasFlag s.b c!"encode_tags" then reescape true s.b.code else s.b.code', 'encode_tags encodes braces', 'encode_tags evaluates BIFs', 'C70')
M('N41', 'Bifs', 'bifCode', '(if hasFlag s.b c!"encode_tags_after" then do', '(if hasFlag s.b c!"encode_tags" then do', 'encode_tags_after ignored', 'encode_tags_after', 'C70')
M('N42', 'Bifs', 'bifCode', 'let c2 := if hasFlag s.b c!"encode_bifs" then sanitizeBifs c1 else c1', 'let c2 := if hasFlag s.b c!"encode_bifs" then reescape false c1 else c1', 'encode_bifs encodes tags', 'encode_bifs', 'C70')
# definitions
M('N43', 'Bifs', 'bifParam', 'if s.inh.alias = c!"code" then do\n', 'if true then do\n', 'parameters can be set anywhere', 'where parameters are set', 'C71')
M('N44', 'Bifs', 'bifSnippet', 'if contains c!"snippet" s.inh.currentFile || s.inh.alias = c!"snippet" then do', 'if true then do', 'snippets can be set anywhere', 'where snippets are set', 'C71')
M('N45', 'Bifs', 'bifDeclare', 'if contains c!"snippet" s.inh.currentFile then do\n    perform .createBlockSchema', 'if !contains c!"snippet" s.inh.currentFile then do\n    perform .createBlockSchema', 'declare only outside snippet files', 'where declarations are set', 'C71')
M('N46', 'Bifs', 'bifSnippet', '(if hasFlag s.b c!"static" then do', '(if !hasFlag s.b c!"static" then do', 'static inverted', 'static snippets', 'C71')
M('N47', 'Bifs', 'bifSnippet', '(if setDir\'.isEmpty then .pure () else perform (.setCurrentDir setDir\'))', '.pure ()', 'snippets are evaluated in the directory of their use', '# in snippets', 'C72')
M('N48', 'Bifs', 'bifSnippet', 'childParse body (contains c!"{:snip" body)', 'childParse body true', 'definitions of a played snippet stay', 'the meaning of snippets', 'C77')
# printed
M('N49', 'Bifs', 'bifHash', 'else setOut (env.md5 s.b.code)', 'else setOut (env.sha256 s.b.code)', 'wrong hash', 'hash', 'C73')
M('N50', 'Bifs', 'bifHash', 'setOut (env.randHash t)\n', 'setOut (env.md5 [])\n', 'hash without text is constant', 'hash', 'C73')
M('N51', 'Bifs', 'bifNeutral', 'setOut s.raw\n\n/-- `parse_bif_param`', 'setOut s.b.src\n\n/-- `parse_bif_param`', 'neutral prints only its inside', 'neutral', 'C73')
M('N52', 'Bifs', 'bifCount', '  bifError c!"Bif \'count\' is deprecated"', '  .pure ()', 'count works', 'count is always an error', 'C73')
M('N53', 'Bifs', 'bifDate', 'if s.b.code.isEmpty then setOut (showNat (env.now t))', 'if s.b.code.isEmpty then setOut (showNat t)', 'date prints the tick', 'date', 'C73')
M('N54', 'Bifs', 'bifLang', 'setOut s.sh.lang\n', 'setOut c!"en"\n', 'lang always prints en', 'lang', 'C48')
# fetch
M('N55', 'Bifs', 'fetchDiv', 'else if event = c!"visible" then divFetch c!"visible"', 'else if event = c!"visible" then divFetch c!"auto"', 'visible is auto', 'fetch', 'C74')
M('N56', 'Bifs', 'bifFetch', '(replaceAll c!"{class}" (argOpt args 4)\n          (replaceAll c!"{wrap}" (argOpt args 3)', '(replaceAll c!"{class}" (argOpt args 3)\n          (replaceAll c!"{wrap}" (argOpt args 4)', 'class and wrapper swapped', 'fetch', 'C74')
M('N57', 'Bifs', 'divFetchForm', 'method=\\"POST\\"', 'method=\\"GET\\"', 'forms are sent by GET', 'fetch', 'C74')
# cache
M('N58', 'Bifs', 'cacheOff', 'sh.cacheDisable || (hasPost', '(hasPost', 'cache_disable ignored', 'cache_disable', 'C75')
M('N59', 'Bifs', 'bifCache', 'if s.inh.inCache then setOut s.raw\n', 'if s.inh.inCache then setOut s.b.code\n', '!cache stores its code without the mark', '!cache', 'C75')
M('N60', 'Bifs', 'cacheOff', '(hasCookies && !sh.cacheOnCookies)', '(hasCookies && sh.cacheOnCookies)', 'wrong condition for cookies', 'the cache for requests with cookies', 'C75')
# frame
M('N61', 'Bifs', 'bifTrans', 'let trans := getTrans env s s.b.src\n', 'let trans := getTrans env s s.b.src\n  setData c!"__trans__" trans\n', 'trans writes data', 'trans changes nothing', 'C76')
M('N62', 'Bifs', 'bifCoalesce', '  perform (.setLastCoalesce false)\n', '  perform (.setLastCoalesce false)\n  perform (.setExit false)\n', 'coalesce cancels an exit', 'coalesce changes no exit', 'C76')
M('N63', 'Bifs', 'bifHash', 'modB (fun b => { b with code := trim b.src })\n  let s ← getSt\n  (if contains bifOpen s.b.src then do\n    let x ← childParse s.b.code s.b.modScope\n    setCode x\n  else setCode (trim s.b.code))\n', 'modB (fun b => { b with code := trim b.src })\n  let s ← getSt\n  perform (.writeFile c!"/tmp/hash" s.b.code 0)\n  (if contains bifOpen s.b.src then do\n    let x ← childParse s.b.code s.b.modScope\n    setCode x\n  else setCode (trim s.b.code))\n', 'hash writes a file', 'hash writes nothing', 'C61', 'C76')
# language
M('N64', 'Bifs', 'bifEach', 'perform (.setData keyName restoreKey)\n        perform', 'perform', 'the key variable is not restored', 'variables after a render', 'C77', 'C79')
M('N65', 'Bifs', 'eachItems', '| .obj o => o\n', '| .obj o => o.reverse\n', 'objects are walked backwards', 'the meaning of each', 'C77', 'C36')
M('N66', 'Bifs', 'forIter', 'setData varName val\n', 'setData varName varName\n', 'the variable of for holds its name', 'the meaning of for', 'C77')
M('N67', 'Bifs', 'bifParam', '(.setIndir c!"params" s.b.params (.str s.b.code))\n      setOut []', '(.setIndir c!"params" s.b.code (.str s.b.params))\n      setOut []', 'parameter and value swapped', 'the meaning of param', 'C77')
M('N68', 'Bifs', 'bifTrans', '(if s.b.modNegate then [] else s.b.src) else trans)', '(if s.b.modNegate then [] else s.b.src) else s.b.src)', 'nothing is translated', 'the meaning of trans', 'C77')
M('N69', 'Bifs', 'bifVar', "if (s.b.modFilter || s.sh.filterAll) && !s.b.modNegate then", "if s.b.modFilter && s.sh.filterAll && !s.b.modNegate then", 'filters need both the modifier and filter_all', 'filtered templates', 'C78')
M('N70', 'Bifs', 'bifVar', 'if !startsWith c!"CONTEXT->" varName then reescape true out0 else out0', 'if !startsWith c!"C" varName then reescape true out0 else out0', 'every variable that begins with C is exempt', 'filtered templates', 'C78', 'C25')
M('N71', 'Bifs', 'storageOf', '| none => (dataOf s, name)', '| none => ((s.sh.getIndir s.inh.indir).index c!"data", name)', 'tests read local data', 'the meaning of tests', 'C77', 'C80')
M('N72', 'Bifs', 'bifFilled', '!isEmptyKey v k)', '!isEmptyKey v k && isArrayKey v k)', 'filled only for arrays', 'the meaning of filled', 'C77')
M('N73', 'Bifs', 'bifSame', 'fun a b => a == b', 'fun a b => startsWith a b', 'same tests a prefix', 'the meaning of same', 'C33', 'C77')

M('N74', 'Template', 'Shared.new', 'cacheOnPost := isBoolKey env.f64 cfg c!"cache_on_post"', 'cacheOnPost := isBoolKey env.f64 cfg c!"cache_on_get"', 'wrong configuration key', 'options', 'C82')
M('N75', 'Template', 'Shared.new', 'cacheDir := if cacheDir.isEmpty then env.tempDir else cacheDir', 'cacheDir := cacheDir', 'no default cache directory', 'options', 'C82')
M('N76', 'Template', 'Shared.new', 'disableJs := isBoolKey env.f64 cfg c!"disable_js"', 'disableJs := (cfg.index c!"disable_js").asBool?.getD false', 'only true disables the script', 'options', 'C82')
M('N77', 'Template', 'Shared.new', 'debugFile := getFromKey env.f64 cfg c!"debug_file"', 'debugFile := []', 'debug_file ignored', 'options', 'C82', 'C65')
M('N78', 'Template', 'initSharedOnce', "schema := schema2\n            indir := fun x => if x = p.2.indir then some (schema1.index c!\"inherit\") else none },\n          { p.2 with\n            currentFile := filePath\n            currentDir := if filePath.isEmpty then p.1.workingDir else (env.parent filePath).getD p.2.currentDir })\n\n/-- One pass", "schema := schema1\n            indir := fun x => if x = p.2.indir then some (schema1.index c!\"inherit\") else none },\n          { p.2 with\n            currentFile := filePath\n            currentDir := if filePath.isEmpty then p.1.workingDir else (env.parent filePath).getD p.2.currentDir })\n\n/-- One pass", 'render_once does not filter CONTEXT', 'render_once equals render', 'C30')
M('N79', 'Template', 'cacheLoop', 'match pass env sh inh out c!"!cache" with', 'match pass env sh inh out [] with', 'the second pass evaluates every BIF', 'second pass', 'C120')
M('N80', 'Template', 'endsRender', '(applyMoveto sh.schema out).map (fun o => finalOut sh (replacements o))', '(applyMoveto sh.schema (replacements out)).map (fun o => finalOut sh o)', 'marks in moved code are kept', 'moveto and marks', 'C37')
M('N81', 'Template', 'finalOut', 'strLe sh.statusCode c!"599" then', 'strLe sh.statusCode c!"499" then', 'server errors keep the content', 'errors replace the content', 'C40')
M('N82', 'Template', 'Tpl.mergeSchemaPath', '| none => .err c!"Is not a valid JSON file"\n    | some v => t.merge v', '| none => .ok t\n    | some v => t.merge v', 'invalid schema files are ignored', 'schema of a template', 'C60')
M('N83', 'Template', 'Tpl.fromFileMsgpack', 'if noBytes then Tpl.fromFileValue env w path (.obj [])', 'if noBytes then Tpl.fromFileValue env w path .null', 'no bytes give a null schema', 'schema of a template', 'C60')
M('N84', 'Template', 'Tpl.setSrcPath', '| some raw => ({ t with filePath := path, raw := raw }, none)', '| some raw => ({ t with raw := raw }, none)', 'the file path is not remembered', '# in templates', 'C72')
M('N85', 'Interp', 'bifFinish', '.ok (trim (if s.b.modUpline then', '.ok ((if s.b.modUpline then', 'BIF output is not trimmed', 'output of a BIF', 'C69')
M('N86', 'Interp', 'bifFinish', '{ s.inh with lastBifOut := ne, lastCoalesceOut := ne }', '{ s.inh with lastBifOut := ne }', 'coalesce never stops', 'the meaning of coalesce', 'C35', 'C77')
M('N87', 'Interp', 'blocksGo', 'if sh.exit then .ok out sh inh', 'if sh.exit then .ok (out ++ src.drop prevEnd) sh inh', 'the text after an exit is printed', 'exit', 'C23')
M('N88', 'Interp', 'blocksGo', '| [], sh, inh => .ok (trim (out ++ src.drop prevEnd)) sh inh', '| [], sh, inh => .ok (trim out) sh inh', 'the text after the last BIF is lost', 'text', 'C28', 'C77')
M('N89', 'Interp', 'bifParse', 'else match setModifiers { BifS.new with src := src } name with', 'else match setModifiers { BifS.new with src := src, modFilter := inh.inOnly } name with', 'siblings are filtered', 'the meaning of variables', 'C68')
M('N90', 'Interp', 'setModifiers', "else if c = '!' then setModifiers { b with modNegate := true } r", "else if c = '!' then setModifiers { b with modNegate := !b.modNegate } r", '!! cancels', 'the meaning of modifiers (twice the same modifier)', 'C77')

M('N91', 'Php', 'field', '  | some .null => d\n', '', 'null fields are not defaulted', 'what a PHP function is called with', 'C83')
M('N92', 'Php', 'globalsOf', '⟨field p c!"schema" .null, field p c!"schema_data" .null,', '⟨field p c!"schema_data" .null, field p c!"schema" .null,', 'schema and data swapped', 'what a PHP function sees', 'C83')
M('N93', 'Php', 'bridgeCall', '.throws o => o ++ bridgeError P c!"callback execution failed"', '.throws o => o', 'exceptions are not reported', 'errors of PHP', 'C83')
M('N94', 'Php', 'bridgeRun', 'if file.isEmpty || !P.isFile file then', 'if file.isEmpty then', 'missing scripts are loaded', 'errors of PHP', 'C83')
M('N95', 'Php', 'bridgeCall', '(field p c!"params" (.arr [])) (globalsOf p)', '(field p c!"param" (.arr [])) (globalsOf p)', 'the parameters are not passed', 'what a PHP function is called with', 'C83')
M('N96', 'FastCgi', 'payload', '(c!"callback", .str c.callback)', '(c!"callback", .str c.file)', 'the callback is the file', 'the function called', 'C83')
M('N97', 'Venv', 'setupVenv', '({ vars with home := some home, path := some path }, .ok ())', '({ vars with home := some path, path := some home }, .ok ())', 'prefix and path swapped', 'environment of the first object', 'C84')
M('N98', 'Venv', 'startUp', '  | some I => I\n', '  | some I => { I with path := H.startPath vars ++ I.path }\n', 'a later environment is added to the path (a fix)', 'C84_refuted describes the code', 'C84')
M('N99', 'Venv', 'setupVenv', 'if !H.exists_ exe then', 'if false then', 'an environment without Python is accepted', 'missing environments', 'C84')

M('O01', 'Interp', 'errorLine', '++ c!") " ++ e.msg ++ c!" file~: ("', '++ c!") " ++ e.msg ++ c!" file: ("', 'file: without ~', 'format of an error', 'C87')
M('O02', 'Interp', 'bifParse', '.ok [] (pushError sh (oneLine (c!"The delimiter was not found: " ++ raw))) inh', '.ok [] (pushError sh (c!"The delimiter was not found: " ++ raw)) inh', 'line breaks kept in delimiter errors', 'every error is one line', 'C87')
M('O03', 'Interp', 'bifParse', '.ok [] (pushError sh (oneLine (c!"The delimiter was not found: " ++ raw))) inh', '.ok [] (pushError (pushError sh (oneLine raw)) (oneLine (c!"The delimiter was not found: " ++ raw))) inh', 'the delimiter error is recorded twice', 'at most one error for each BIF', 'C87', 'C88')
M('O04', 'Bifs', 'bifUnknown', '  setAlias c!"unknown"\n  bifError', '  bifError', 'unknown BIFs keep their name in errors', 'the name in an error (Called allows it)', 'C87')
M('O05', 'State', 'pushError', '(.arr (a ++ [.str line]))', '(.arr (.str line :: a))', 'errors are put first', 'the list of errors', 'C22')
M('O06', 'State', 'oneLine', "if c = '\\n' || c = '\\r' then ' ' else c", "if c = '\\n' then ' ' else c", 'carriage returns stay', 'every error is one line', 'C87')
M('O07', 'Bytes', 'bifLoop', "if prev.toNat = '{'.toNat then bifLoop src f (nested + 1) (delim + 1)", "if prev.toNat = '{'.toNat then bifLoop src f (nested + 1) (delim + 2)", 'two bytes are skipped after {:', 'byte positions', 'C86')
M('O08', 'Bytes', 'commentLoop', "else if prev.toNat = '*'.toNat ∧ next.toNat = '}'.toNat then .ok (some (delim + 2))", "else if prev.toNat = '*'.toNat ∧ next.toNat = '}'.toNat then .ok (some (delim + 3))", 'a comment takes one byte more', 'byte positions', 'C86')
M('O09', 'Bytes', 'isStar', 'if i < src.length then do', 'if i ≤ src.length then do', 'reads after the end', 'no panic on byte positions', 'C86')
M('O10', 'Bytes', 'gapsLoop', '.ok ((findB (utf8 c!":}") x).map (fun p => prevEnd + p))', '.ok (findB (utf8 c!":}") x)', 'the reported position is relative', 'the reported position', 'C86')
M('O11', 'Bytes', 'codeLoop', 'if i + 1 < src.length then', 'if i < src.length then', 'reads after the end', 'no panic on byte positions', 'C86')
M('O12', 'Bytes', 'splitCode', 'let b ← sliceFrom src (p + 2)', 'let b ← sliceFrom src (p + 3)', 'one byte of the code is lost', 'splitting code', 'C86')
M('O13', 'Bytes', 'modLoop', 'let start ← sliceB name index (index + 1)', 'let start ← pure ((name.drop index).take 1)', 'no panic on a multi-byte name (a fix)', 'what panics', 'C86')
M('O14', 'Bytes', 'pointerLoop', 'else pointerLoop key f v (i + 2) (i + 2)', 'else pointerLoop key f v (i + 1) (i + 1)', '-> counts one byte', 'paths', 'C86')
M('O15', 'Bytes', 'parseUsizeB', 'if n < 2 ^ 64 then', 'if n ≤ 2 ^ 64 then', 'one index too many', 'paths', 'C86')
M('O16', 'Bytes', 'findTagPosition', '.ok (some (p + q + 1))', '.ok (some (p + q))', 'moved text is placed before >', 'moveto', 'C86')
M('O17', 'Bytes', 'extractHttpBody', 'sliceFrom stdout (p + 4)', 'sliceFrom stdout (p + 3)', 'the body keeps a line break', 'HTTP body', 'C86')
M('O18', 'Bytes', 'rcsLoop', 'rcLoop src (src.length + 1) nested (openPos + 3)', 'rcLoop src (src.length + 1) nested (openPos + 2)', 'the star is read twice', 'comments', 'C86')
M('O19', 'Utils', 'scanRC', "if 0 < nested then scanRC c (nested - 1)", "if 1 < nested then scanRC c (nested - 1)", 'one nested comment is not closed', 'comments are removed exactly', 'C16')
M('O20', 'Utils', 'scanRCs', '| .unclosed n e => scanRCs n e (pos + 1) (e - pos - 1) r', '| .unclosed n e => scanRCs 0 e (pos + 1) (e - pos - 1) r', 'an open comment forgets its nesting', 'comments are removed exactly', 'C16', 'C86')
M('O21', 'Bifs', 'containsAllow', 'if contains c!"{:allow;" source || contains c!"{:!allow;" source then some true', 'if contains c!"{:allow;" source then some true', '!allow is not accepted', 'what is allowed', 'C27')
M('O22', 'Bifs', 'containsAllow', '!(startsWith c!"{:;" t && endsWith bifClose t)', '!(startsWith c!"{:;" t || endsWith bifClose t)', 'stricter', 'what is allowed', 'C27', 'C66')
M('O24', 'Bifs', 'resolveFilePath', '    requireAllow s.b.code c!"insecure file name"\n', '', 'variables in file names', 'insecure file names', 'C66', 'C27')
M('O25', 'Bifs', 'requireAllow', '| none => .panic .bounds\n  | some true => .pure ()', '| none => .pure ()\n  | some true => .pure ()', 'comments never panic', 'which BIF panics', 'C43')
M('O26', 'Bifs', 'joinValue', 'joinStr sep (a.map (fun v => (v.asStr?).getD []))', 'joinStr sep (a.map (fun v => joinText env v))', 'numbers of arrays are joined (a fix)', 'join', 'C59')
M('O27', 'Bifs', 'joinValue', '(List.range a.length).map showNat', '(List.range a.length).map (fun i => showNat (i + 1))', 'keys from 1', 'join', 'C59')
M('O28', 'Bifs', 'bifJoin', '(localDataOf s).pointer (replaceAll c!"/local::" c!"/" name)', '(dataOf s).pointer (replaceAll c!"/local::" c!"/" name)', 'local:: reads global data', 'join', 'C59')
M('O29', 'Bifs', 'bifSnippet', 'if contains c!"snippet" s.inh.currentFile || s.inh.alias = c!"snippet" then do', 'if contains c!"snippet" s.inh.currentFile then do', 'no nested definitions', 'where snippets are set', 'C71')
M('O30', 'Bifs', 'bifSnippet', 'let x ← childParse body (contains c!"{:snip" body)', 'let x ← childParse body false', 'the scope of a snippet', 'what a snippet leaves', 'C71', 'C72', 'C24')
M('O31', 'Bifs', 'bifDate', 'match env.utcFormat t s.b.src with', 'match env.utcFormat t s.b.code with', 'the format is the evaluated code (a fix)', 'date', 'C73')
M('O32', 'Bifs', 'bifSum', 'env.f64.add x y', 'env.f64.add x x', 'x is added twice', 'sum', 'C48')
M('O33', 'Bifs', 'bifEach', 'c!"arguments \'key\' not found"', 'c!"arguments \'value\' not found"', 'wrong message', 'the message (still one of each)', 'C36')
M('O34', 'Bifs', 'bifRedirect', 'denyFlags\n  parseCode false\n  let s ← getSt\n  match redirectPlan', 'parseCode false\n  let s ← getSt\n  match redirectPlan', 'flags are ignored', 'flags', 'C106')
M('O35', 'Bifs', 'bifLocale', '    bifError c!"flags not allowed"\n', '    bifError c!"modifiers not allowed"\n', 'wrong message', 'messages', 'C89')
M('O36', 'Bifs', 'bifCount', "c!\"Bif 'count' is deprecated\"", "c!\"count is deprecated\"", 'wrong message', 'messages', 'C89')
M('O37', 'Bifs', 'bifUnknown', 'bifError c!"unknown bif"', 'bifError c!"not found"', 'wrong message', 'messages', 'C89', 'C42')
M('O38', 'Bifs', 'redirectPlan', '.error c!"status code not allowed"', '.error c!"modifier not allowed!"', 'wrong message', 'messages', 'C89', 'C41')
M('O39', 'Bytes', 'keptLoop', 'let y ← keptLoop src e r', 'let y ← keptLoop src s r', 'comments are kept', 'comments', 'C86')
M('O40', 'Bytes', 'stepB', '| .arr a => (parseUsizeB part).bind (fun i => a[i]?)', '| .arr a => (parseUsizeB part).bind (fun i => a[i + 1]?)', 'arrays from 1', 'paths', 'C86')
# ---- Q: what a render depends on, reports and answers (C60, C72, C75, C90-C93)
M('Q01', 'Bifs', 'bifHash', '  else setOut (env.md5 s.b.code)\n\n/-- `parse_bif_include`', '  else setOut (env.md5 (s.b.code ++ showNat (env.now s.sh.w.tick)))\n\n/-- `parse_bif_include`', 'the hash depends on the time', 'what a render depends on', 'C90')
M('Q02', 'Bifs', 'bifInclude', '      let raw := (readFile s s.b.filePath).getD []\n      if hasFlag s.b c!"safe" then do', '      let raw := (readFile s canon).getD []\n      if hasFlag s.b c!"safe" then do', 'the resolved name is read', 'an included file is the one named', 'C52', 'C91')
M('Q03', 'Bifs', 'bifInclude', '    (if hasFlag s.b c!"require" then bifError c!"file not found" else .pure ())\n  else do\n    (match env.parent s.b.filePath with\n      | some d => setDir d\n      | none => .pure ())\n    let canon ← canonUnwrap env s.b.filePath\n    if s.b.modNegate && s.inh.includeFiles', '    (if hasFlag s.b c!"require" && !fileExists s c!"/default" then bifError c!"file not found" else .pure ())\n  else do\n    (match env.parent s.b.filePath with\n      | some d => setDir d\n      | none => .pure ())\n    let canon ← canonUnwrap env s.b.filePath\n    if s.b.modNegate && s.inh.includeFiles', 'looks at another file', 'only named files matter', 'C91')
M('Q04', 'Prog', 'handleUnmatched', '    statusCode := c!"500"\n', '    statusCode := c!"400"\n', 'status 400', 'unmatched blocks are a 500', 'C92', 'C29')
M('Q05', 'Bifs', 'bifUnknown', '  setAlias c!"unknown"\n  bifError', '  setAlias c!"unknown"\n  perform (.setStatus c!"404" [])\n  bifError', 'unknown BIFs set the status', 'who sets the status', 'C92', 'C42')
M('Q06', 'Bifs', 'cacheLookup', '        cacheParse restore setOut\n        bifError', '        cacheParse restore setOut\n        perform (.setExit true)\n        bifError', 'an unreadable entry stops the page', 'who stops a render', 'C92')
M('Q07', 'Bifs', 'bifMoveto', '    (.obj [(s.b.params, .str s.b.code)]))\n', '    (.obj [(s.b.params, .str s.b.code)]))\n  perform (.setData c!"moved" s.b.params)\n', 'moveto writes the data', 'who writes data', 'C92', 'C37')
M('Q08', 'Bifs', 'bifInclude', '      else if hasFlag s.b c!"noparse" then do\n        setCode raw\n        outCode\n      else do\n        perform (.pushFile .incl canon)', '      else if hasFlag s.b c!"noparse" then do\n        perform (.writeFile canon raw 0)\n        setCode raw\n        outCode\n      else do\n        perform (.pushFile .incl canon)', 'noparse touches the file', 'who writes files', 'C92')
M('Q09', 'Bifs', 'bifCache', '      perform (.setInCache restore)\n      let expires', '      let expires', 'in_cache is not restored after the arguments', 'being in a cached block ends with it', 'C75')
M('Q10', 'Bifs', 'cacheParse', '    perform (.setInCache restore)\n  else .pure ()', '    perform (.setInCache false)\n  else .pure ()', 'the outer cached block is forgotten', 'being in a cached block ends with it', 'C75')
M('Q11', 'Bifs', 'bifExit', 'if s.b.params.isEmpty then c!"200" else s.b.params', 'if s.b.params.isEmpty then c!"204" else s.b.params', 'default status 204', 'exit without a status', 'C23')
M('Q12', 'Bifs', 'bifExit', '  let param := if hasStatusParams then s.b.code else []\n', '  let param := s.b.code\n', 'the status is repeated as the parameter', 'the parameter of exit', 'C23', 'C93')
M('Q13', 'Bifs', 'bifRedirect', '    perform (.setStatus code s.b.code)\n    perform (.setExit (!s.b.modNegate))\n', '    perform (.setStatus code s.b.code)\n', 'redirect goes on', 'redirect stops', 'C41', 'C93')
M('Q14', 'Template', 'finalOut', "  else if sh.statusCode = c!\"301\" ||", "  else if sh.statusCode = c!\"300\" || sh.statusCode = c!\"301\" ||", '300 is a redirection', 'the answer', 'C40', 'C93')
M('Q15', 'Template', 'setSrcStr', ': Tpl := { t with raw := src }', ': Tpl := { t with raw := src, filePath := [] }', 'the file name is forgotten', 'where the main template is', 'C72')
M('Q16', 'Template', 'mergeSchemaMsgpack', '  | .error e => .err (c!"Is not a valid MessagePack data: " ++ e)\n  | .ok v => t.merge v', '  | .error _ => .ok t\n  | .ok v => t.merge v', 'bad data are accepted', 'what is rejected', 'C60')
M('Q17', 'Template', 'mergeSchemaMsgpackPath', '  | none => .err (env.readErr path)\n  | some _ => t.mergeSchemaMsgpack decoded', '  | none => .ok t\n  | some _ => t.mergeSchemaMsgpack decoded', 'a missing file is accepted', 'what is rejected', 'C60')
M('Q18', 'Bifs', 'bifRand', 'setOut (showInt (env.randRange t 100000000 999999999))', 'setOut (showNat (env.now t))', 'the time is the random number', 'what a render depends on', 'C90')
M('Q19', 'Bifs', 'cacheId', '    id ++ s.sh.lang ++ expires\n', '    id ++ s.sh.lang ++ showNat (env.now s.sh.w.tick) ++ expires\n', 'entries depend on the time', 'what identifies an entry', 'C38', 'C85')
M('Q20', 'Prog', 'handleUnmatched', '    statusText := statusTextOf c!"500" }', '    statusText := statusTextOf c!"500"\n    exit := true }', 'an unmatched block stops the page', 'who stops a render', 'C92')
M('Q21', 'Interp', 'blocksGo', '    if sh.exit then .ok out sh inh\n', '    if sh.exit then .ok (trim out) sh inh\n', 'the text is trimmed', 'what is printed before an exit', 'C68', 'C93')
M('Q22', 'Bifs', 'bifLang', '  setOut s.sh.lang\n', '  setOut s.sh.lang\n  perform (.pushFile .locale s.sh.lang)\n', 'lang counts as a locale file', 'who adds files', 'C92')
M('Q23', 'Bifs', 'outUncached', 'setOut (if s.inh.inCache then', 'setOut (if !s.inh.inCache then', 'exit prints itself outside of the cache', 'exit prints nothing', 'C23', 'C93')

# ---- the script and the concurrent cache
M('R01', 'Clean', 'isExpired', 'decide (now - mtime ≥ life)', 'decide (now - mtime > life)', 'removed one second later', 'what is removed', 'C95', 'C96')
M('R02', 'Clean', 'isHex3', 'name.length == 3 && name.all hex', 'name.all hex', 'directories of any hexadecimal name are swept', 'only entries are touched', 'C95')
M('R03', 'Clean', 'visible', "name.head? != some '.'", 'true', 'hidden names are matched by *', 'only entries are touched', 'C95')
M('R04', 'Clean', 'bashNum', "if d.head? = some '0' then (if", "if d.head? = some '1' then (if", 'leading 0 is not octal', 'how lifetimes are read', 'C95', 'C96')
M('R05', 'Clean', 'wrap', 'if n % 2 ^ 64 < 2 ^ 63 then', 'if n % 2 ^ 64 ≤ 2 ^ 63 then', 'wrap around one later', 'how lifetimes are read', 'C95')
M('R06', 'Clean', 'lifeOf', 'if !h.isEmpty && h.all hex &&', 'if h.all hex &&', 'names without a hash are entries', 'only entries are touched', 'C95')
M('R07', 'Clean', 'lifeOf', '!d.isEmpty && d.all dec then', 'd.all dec then', 'names without a lifetime are entries', 'only entries are touched', 'C95')
M('R08', 'Clean', 'lifeOf', 'd.all dec then some d', 'd.all hex then some d', 'lifetimes are hexadecimal', 'only entries are touched', 'C95')
M('R09', 'Clean', 'outer', '        if x.1.isEmpty then', '        if x.2.2.isEmpty then', 'the directory is removed when nothing was', 'only empty directories are removed', 'C95')
M('R10', 'Clean', 'run', 'if !contains c!"neutral-cache" base then', 'if !contains c!"cache" base then', 'any cache directory', 'which directories are refused', 'C95')
M('R11', 'Clean', 'noSlash', "(dir.reverse.dropWhile (· == '/')).reverse", "dir.dropWhile (· == '/')", 'slashes are removed in front', 'the directory', 'C95')
M('R12', 'Clean', 'sweep', "(if S.rm (path ++ c!\"/\" ++ n) then r.1 else (n, i) :: r.1,", "(r.1,", 'rm always works', 'what is left', 'C95')
M('R13', 'Clean', 'run', '⟨items, 1, [c!"Invalid', '⟨items, 0, [c!"Invalid', 'status 0 for a refused directory', 'which directories are refused', 'C95')
M('R14', 'Clean', 'hex', "('A' ≤ c && c ≤ 'F')", "('A' ≤ c && c ≤ 'Z')", 'more letters', 'only entries are touched', 'C95')
M('R15', 'Clean', 'outer', 'let r := outer S base x.2.1 l\n        if', 'let r := outer S base t l\n        if', 'the clock is not asked again', 'the times', 'C95')
M('R16', 'Clean', 'run', 'c!"clean-cache start" :: r.2.2 ++ [c!"clean-cache end"]', 'c!"clean-cache start" :: [c!"clean-cache end"]', 'nothing is reported', 'the report', 'C95')
M('R17', 'CacheRm', 'expired', '(t : Int) - m ≥ life', '(t : Int) - m > life', 'removed one second later', 'the script disturbs renders in the last second', 'C97')
M('R18', 'CacheRm', 'expired', '(t : Int) - m ≥ life', '(m : Int) - t ≥ life', 'ages are negative', 'only old entries are removed', 'C97')
M('R19', 'CacheRm', 'step', '| some i => some ((s.put i []).go p (.writing i 0))', '| some i => some (s.go p (.writing i 0))', 'the file is not truncated', 'complete texts', 'C97')
M('R20', 'CacheRm', 'step', '| .doomed => some { s.to r .idle with link := none }', '| .doomed => some { s.to r .idle with link := none, node := fun _ => ([], s.now) }', 'a removed file is lost for those who read it', 'complete texts', 'C97')
M('R21', 'CacheRm', 'unread', 'if c.bifs p then c.text p else []', 'if c.bifs p then [] else c.text p', 'the wrong branch prints', 'what is printed on errors', 'C97')
M('R22', 'CacheRm', 'readEnd', 'if c.valid acc then .done acc false else unread c p', '.done acc false', 'no error for a text that is not UTF-8 (none of these is reachable in the theorems with valid texts)', 'origin', 'C97')
M('R23', 'CacheRm', 'step', 'link := some s.next, next := s.next + 1 }', 'link := some s.next }', 'a new file has an old number', 'complete texts', 'C97')
M('R24', 'CacheRm', 'step', 'if s.link.any (fun i => expired c t (s.node i).2) then .doomed else .idle', 'if s.link.any (fun i => expired c s.now (s.node i).2) then .doomed else .idle', 'the clock is read after stat', 'the order of calls of the script', 'C97')
M('R25', 'CacheRm', 'step', '| .idle => if s.link = none then some { s with dir := false } else none', '| .idle => some { s with dir := false, link := none }', 'a directory is removed with its entry', 'a young entry stays', 'C97')
M('R26', 'CacheRm', 'step', 'if t > (s.node i).2 + c.life then .evaluating else .opening', 'if t ≥ (s.node i).2 + c.life then .evaluating else .opening', 'not used in the last second', 'a young entry stays', 'C97')
M('R27', 'CacheRm', 'step', '      | none => unread c p\n      | some i => .reading i []', '      | none => .done (c.text p) false\n      | some i => .reading i []', 'no error for a removed entry (a fix)', 'the script disturbs renders', 'C97')
M('R28', 'CacheRm', 'step', '| .writing _ _ => some (s.go p (.done (c.text p) true))', '| .writing _ _ => some (s.go p (.done [] true))', 'nothing printed after a failed write', 'what is printed on errors (origin holds; the lock theorem excludes failing writes)', 'C97')
M('R29', 'CacheFs', 'readEnd', 'else if c.bifs p then c.text p else []', 'else c.text p', 'plain code is printed on read errors', 'what is printed on errors', 'C39')
M('R30', 'Bifs', 'bifFor', 'forList (forValues a b) (fun i', 'forList ((forValues a b).take 1000) (fun i', 'loops stop after 1000 rounds', 'the number of copies', 'C94', 'C36')

M('J01', 'Client', 'Page.unclass', 'if j = i ∧ l = k then false else', 'if j = i ∧ l = k then true else', 'the class stays', 'an element is set up once', 'C99')
M('J02', 'Client', 'Page.setUp', '| .auto => q.get i .auto', '| .auto => (q.get i .auto).get i .auto', 'asks twice', 'at most one request', 'C99')
M('J03', 'Client', 'Page.setUp', '| .click => { q with clickL := fun j => if j = i then q.clickL j + 1 else q.clickL j }', '| .click => q', 'no listener', 'a click asks', 'C99')
M('J04', 'Client', 'Page.fev', '(((p.all .form).all .auto).all .click).all .visible', '((p.all .form).all .auto).all .click', 'visible elements are not observed', 'visible elements ask', 'C99')
M('J05', 'Client', 'Page.targetOf', 'if e.wrap.isEmpty then some i else p.byId e.wrap', 'some i', 'data-wrap is not used', 'the element that is replaced', 'C99')
M('J06', 'Client', 'Page.byId', 'p.live i && decide', 'decide', 'elements that are gone are found', 'the element that is replaced', 'C99')
M('J07', 'Client', 'Page.get', '⟨i, c, e.url, p.targetOf i e⟩', '⟨i, c, e.action, p.targetOf i e⟩', 'the wrong address', 'the address of a request', 'C99')
M('J08', 'Client', 'Page.posts', '⟨i, .submit, e.action, p.targetOf i e⟩', '⟨i, .submit, e.url, p.targetOf i e⟩', 'the wrong address', 'the address of a submission', 'C99')
M('J09', 'Client', 'Page.having', 'p.live i && p.cls i k', 'p.cls i k', 'elements that are gone are set up, too (no claim about these)', 'edge', 'C99')
M('J10', 'Client', 'Page.event', 'Page.fev { p with events := p.events ++ [(ok, r)] }', '{ p with events := p.events ++ [(ok, r)] }', 'no set-up after an answer', 'elements that came with an answer work', 'C99')
M('J11', 'Client', 'step', 'some (({ p with observed := fun j => if j = i then false else p.observed j }).get i .visible)', 'some (p.get i .visible)', 'still observed', 'asks once', 'C99')
M('J12', 'Client', 'step', '| some _ => some (((p.land r).change keep new).event true r)', '| some _ => some ((p.change keep new).event true r)', 'the request is not over', 'one event', 'C100', 'C102')
M('J13', 'Client', 'step', '| some _ => some (((p.land r).change keep []).event false r)', '| some _ => some ((p.land r).change keep [])', 'no event for a failure', 'one event', 'C100')
M('J14', 'Client', 'step', '| some _ => some (((p.land r).change keep new).event true r)', '| some _ => some (((p.land r).change keep new).event false r)', 'the wrong event', 'which event', 'C100')
M('J15', 'Client', 'step', '| none => if q.cause = .submit then some (p.formError r q.node) else some (p.land r)', '| none => some (p.formError r q.node)', 'an event for lost requests (a fix)', 'the refutation', 'C100')
M('J16', 'Client', 'Page.formError', 'restoring := p.restoring ++ [i]', 'restoring := p.restoring', 'the error is never taken away', 'submission after an error', 'C102')
M('J17', 'Client', 'step', 'disabled := fun j => if j = i then false else p.disabled j', 'disabled := p.disabled', 'the buttons stay disabled', 'submission after an error', 'C102')
M('J18', 'Client', 'Page.posts', 'disabled := fun j => if j = i then true else p.disabled j', 'disabled := p.disabled', 'the buttons are not disabled', 'one submission at a time', 'C102')
M('J19', 'Client', 'step', 'p.live i && !(e.buttons && p.disabled i)', 'p.live i', 'disabled buttons work', 'one submission at a time', 'C102')
M('J20', 'Client', 'body', 'if hasFile l then formData l ++ appended l else formData l', 'if hasFile l then appended l else formData l', 'files are not sent', 'all controls are sent', 'C101')
M('J21', 'Client', 'body', 'if hasFile l then formData l ++ appended l else formData l', 'formData l', 'a fix', 'the refutation', 'C101')
M('J22', 'Client', 'formData', '!c.disabled && !c.name', '!c.name', 'disabled controls are sent', 'which controls are sent', 'C101')
M('J23', 'Client', 'hasFile', '!c.name.isEmpty && decide (c.type = .file)', 'decide (c.type = .file)', 'a file control without a name counts', 'forms without a named file control', 'C101')
M('J24', 'Client', 'Page.change', 'match new[i - p.elems.length]? with\n      | some e => e.has', 'match new[i - p.elems.length]? with\n      | some _ => fun _ => false', 'new elements have no classes', 'elements that came with an answer work', 'C99')
M('J25', 'Client', 'step', '| r :: l => some (Page.send { p with waiting := l } r)', '| r :: l => some (Page.send p r)', 'a submission is sent again and again', 'one request per submission', 'C99', 'C102')
M('J26', 'Client', 'step', '| .click i => if p.live i then some (p.gets i .click (p.clickL i)) else none', '| .click i => if p.live i then some (p.gets i .click 1) else none', 'every element asks', 'only elements with the class ask', 'C99')
M('J27', 'Client', 'Page.all', '(p.having k).foldl', '(p.having k).tail.foldl', 'the first element is missed', 'every element is set up', 'C99')
M('J28', 'Client', 'Page.send', 'flying := fun k => if k = p.sent.length then true else p.flying k', 'flying := p.flying', 'no request is under way', 'events', 'C100')

L = [m for m in L if m['id'] not in ('B19',)]
import sys
M('K01', 'Bifs', 'bifCount', 'setOut (showInt n))\n  bifError', 'setOut (showInt m))\n  bifError', 'the next number is printed', 'what count prints', 'C103')
M('K02', 'Bifs', 'bifCount', 'setData s.b.code (showInt m)', 'setData s.b.code (showInt n)', 'the counter stays', 'repeated counts', 'C103')
M('K03', 'Bifs', 'bifCount', 'match i32Add env n 1 with', 'match i32Add env n 2 with', 'steps of two', 'repeated counts', 'C103')
M('K04', 'Bifs', 'bifCount', "  bifError c!\"Bif 'count' is deprecated\"", '  pure ()', 'no deprecation error', 'each use reports', 'C103')
M('K05', 'Bifs', 'bifCount', 'setData s.b.params (showInt n)\n      setOut []', 'setData s.b.params (showInt n)\n      setOut (showInt n)', 'set prints', 'set prints nothing', 'C103')
M('K06', 'Bifs', 'bifCount', 'denyMods (fun b => b.modFilter || b.modNegate || b.modScope)\n  let isSet ← extractParamsCode true\n  parseCode false\n  let s ← getSt\n  (if isSet then\n    match parseI32 s.b.code', 'denyMods (fun b => b.modFilter || b.modNegate || b.modScope)\n  let isSet ← extractParamsCode true\n  parseCode false\n  let s ← getSt\n  (if isSet then\n    match parseI32 s.b.params', 'the name is parsed as the number', 'set stores', 'C103')
M('K07', 'Bifs', 'i32Add', 'if -(2 ^ 31) ≤ r ∧ r < 2 ^ 31 then some r', 'if -(2 ^ 31) ≤ r ∧ r ≤ 2 ^ 31 then some r', 'boundary', 'overflow', 'C103')

M('K08', 'Bifs', 'bifInclude', 'if s.b.modNegate && s.inh.includeFiles.contains canon then setOut []', 'if s.inh.includeFiles.contains canon then setOut []', 'no file is included twice (a fix of the nesting)', 'a file that includes itself', 'C104')
M('K09', 'Interp', 'runBif', 'if sh.count + 1 > sh.max then .panic .budget', 'if sh.count > sh.max then .panic .budget', 'one BIF more', 'the exact depth', 'C104')

M('W01', 'Interp', 'setModifiers', "else if c = '!' then setModifiers { b with modNegate := true } r", "else if c = '!' then setModifiers { b with modNegate := !b.modNegate } r", 'a second ! undoes the first', 'repeated modifiers', 'C105')
M('W02', 'Interp', 'setModifiers', "else if c = '^' then setModifiers { b with modUpline := true } r", "else if c = '^' then setModifiers { b with modUpline := true, modNegate := false } r", '^ clears !', 'order of modifiers', 'C105')
M('W03', 'Bifs', 'extractParamsCode', '    | some p => { b with params := trim (b.src.take p), code := trim (b.src.drop (p + 2)) }', '    | some p => { b with params := b.src.take p, code := trim (b.src.drop (p + 2)) }', 'parameters are not trimmed', 'white space before >>', 'C105')
M('W04', 'Bifs', 'extractParamsCode', '    | some p => { b with params := trim (b.src.take p), code := trim (b.src.drop (p + 2)) }', '    | some p => { b with params := trim (b.src.take p), code := b.src.drop (p + 2) }', 'the code is not trimmed', 'white space after >>', 'C105')
M('W05', 'Interp', 'bifSplit', '.map (fun p => (p.1, trim p.2))', '.map (fun p => (p.1, p.2))', 'the source is not trimmed', 'outer white space', 'C105')
M('W06', 'Bifs', 'bifDeclare', 'def bifDeclare : Prog Unit := do\n  denyMods (fun b => b.modFilter || b.modNegate || b.modScope)\n  let _ ← extractParamsCode', 'def bifDeclare : Prog Unit := do\n  denyMods (fun b => b.modFilter || b.modNegate || b.modScope || contains c!"  " b.src)\n  let _ ← extractParamsCode', 'two spaces are refused', 'white space', 'C105')

M('W07', 'Bifs', 'denyFlgParams', 'if contains c!"{:flg;" s.b.params then', 'if contains c!"{:flg;" s.b.code then', 'looks in the code', 'flags of BIFs with arguments', 'C106')
M('W08', 'Bifs', 'bifData', 'if !s.b.flags.isEmpty && !hasFlag s.b c!"require" && !hasFlag s.b c!"inline" then bifError c!"flags not allowed"', 'if !s.b.flags.isEmpty && !hasFlag s.b c!"require" && !hasFlag s.b c!"inline" && !hasFlag s.b c!"noparse" then bifError c!"flags not allowed"', 'data takes noparse', 'flags of data', 'C106')
M('W09', 'Bifs', 'badFlag', "((splitChar '|' flags).filter (fun f => !f.isEmpty)).find? (fun f => !(allowed.contains f))", "((splitChar '|' flags).filter (fun f => f.length > 1)).find? (fun f => !(allowed.contains f))", 'flags of one letter pass', 'unknown flags', 'C106')

M('X01', 'Bifs', 'extractArgs', '  | d :: r => argLoop (splitChar d (d :: r))', "  | d :: r => argLoop (splitChar '/' (d :: r))", 'the delimiter is always /', 'other delimiters', 'C107')
M('X02', 'Bifs', 'cmpBif', 'denyMods (fun b => b.modFilter)\n  let _ ← extractParamsCode false\n  denyFlgParams\n  let args', 'denyMods (fun b => b.modFilter)\n  let _ ← extractParamsCode true\n  denyFlgParams\n  let args', 'arguments are evaluated before they are divided', 'data with delimiters', 'C107')
M('X03', 'Bifs', 'extractArgs', '  | d :: r => argLoop (splitChar d (d :: r))', "  | d :: r => argLoop ((splitChar d (d :: r)).map trim)", 'arguments are trimmed', 'spaces count', 'C107')
M('X04', 'Bifs', 'bifReplace', 'setOut (replaceAll a b s.b.code)', 'setOut (replaceAll b a s.b.code)', 'swapped', 'replace', 'C107')
M('X05', 'Bifs', 'bifJoin', "let keys := argTruthy (argOpt args 3)\n  let s ← getSt", "let s ← getSt\n  let keys := argTruthy (argOpt (splitChar '/' s.b.params) 3)", 'the third argument only with /', 'other delimiters', 'C107')
M('X06', 'Bifs', 'bifFetch', "let url ← argReq args 1 c!\"arguments not found\"\n  parseCode false\n  let s ← getSt", "let url ← argReq args 1 c!\"arguments not found\"\n  parseCode false\n  let s ← getSt\n  let url := replaceAll (s.b.params.take 1) [] url", 'the delimiter is removed from the url', 'other delimiters', 'C107')

M('Y01', 'Bifs', 'bifJoin', 'let keys := argTruthy (argOpt args 3)', 'let keys := !argTruthy (argOpt args 3)', 'keys for values', 'join in the language', 'C77')
M('Y02', 'Bifs', 'bifJoin', "joinValue env keys separator v", "joinValue env keys [] v", 'no separator', 'join in the language', 'C77')
M('Y03', 'Bifs', 'bifData', 'mergeJson env c!"data" dataPart ((readFile', 'mergeJson env c!"data" id ((readFile', 'the whole file instead of its data', 'files of data', 'C77')
M('Y04', 'Bifs', 'bifData', 'mergeJson env c!"data" dataPart ((readFile', 'mergeJson env c!"locale" dataPart ((readFile', 'wrong section', 'files of data', 'C77')
M('Y05', 'Bifs', 'bifLocale', 'mergeJson env c!"locale" id text', 'mergeJson env c!"locale" dataPart text', 'the data part of a file of translations', 'files of translations', 'C77')
M('Y06', 'Bifs', 'bifLocale', 'mergeJson env c!"locale" id text\n        setOut unprintable', 'mergeJson env c!"locale" id text\n        setOut []', 'no output: a following else shows', 'files of translations', 'C77')
M('Y08', 'Bifs', 'bifHash', 'def bifHash (env : Env) : Prog Unit := do\n  denyMods (fun b => b.modFilter || b.modNegate || b.modScope)\n  modB (fun b => { b with code := trim b.src })\n  let s ← getSt\n  (if contains bifOpen s.b.src then do\n    let x ← childParse s.b.code s.b.modScope', 'def bifHash (env : Env) : Prog Unit := do\n  denyMods (fun b => b.modFilter || b.modNegate || b.modScope)\n  modB (fun b => { b with code := trim b.src })\n  let s ← getSt\n  (if contains bifOpen s.b.src then do\n    let x ← childParse s.b.code true', 'what is inside changes what is around', 'hash', 'C77')
M('Y09', 'Bifs', 'bifHash', 'else setOut (env.md5 s.b.code)', 'else setOut (env.md5 s.b.src)', 'the hash of the source', 'hash', 'C77')

M('Z01', 'Bridge', 'step', "    | .missing => some { s.go p (.writing 0) with file := some [] }", "    | .missing => some { s.go p (.writing 0) with file := some (s.file.getD [255]) }", 'creation writes something else', 'bytes of the script', 'C109')
M('Z02', 'Bridge', 'step', "if s.file.isSome then .ready else .missing", "if s.file.isSome && s.file != some [] then .ready else .missing", 'an empty file is written again', 'what is there stays', 'C109')
M('Z03', 'Bridge', 'step', "file := some (writeAt f off ((script.drop off).take (k + 1))) }", "file := some (writeAt f 0 ((script.drop off).take (k + 1))) }", 'writes at the beginning', 'whole script', 'C109')
M('Z04', 'Bridge', 'step', "some { s.go p (.writing (off + ((script.drop off).take (k + 1)).length)) with", "some { s.go p (.writing (off + (k + 1))) with", 'counts more than was written', 'nothing (equivalent at the end): offsets', 'C109')
M('Z05', 'FastCgi', 'execPhp', "if !(trim err).isEmpty then .error (c!\"php-fpm stderr: \" ++ trim err)", "if !(trim err).isEmpty && (trim out).isEmpty then .error (c!\"php-fpm stderr: \" ++ trim err)", 'warnings are ignored when there is output', 'reports', 'C108')
M('Z06', 'FastCgi', 'badVersion', 'if h.take 5 = utf8 c!"HTTP/" then', 'if h.take 4 = utf8 c!"HTTP/" then', 'never recognised', 'HTTP endpoints', 'C108')
M('Z07', 'FastCgi', 'endpointOk', '    | some path => !path.isEmpty', '    | some _ => true', 'unix: without a path', 'endpoints', 'C108')
M('Z08', 'FastCgi', 'endpointOk', '      let t := (stripPrefix? c!"tcp://" e).getD e', '      let t := e', 'tcp:// is kept', 'endpoints', 'C108')
M('Z09', 'FastCgi', 'execPhp', '          | some msg => .error msg\n', '          | some _ => .ok v\n', 'errors of the bridge are values', 'reports', 'C108')
M('Z10', 'Bifs', 'cacheExpired', '  else some (decide (now > (mtime + expires) % 2 ^ 64))', '  else some false', 'the longest lifetimes never end', 'wrapping', 'C38')

# ---- ^
M('V51', 'Interp', 'bifFinish', 'let ne := !s.b.out.isEmpty', 'let ne := s.b.modUpline || !s.b.out.isEmpty', 'the mark of ^ counts as output', '^ changes nothing but white space', 'C110')
M('V52', 'Interp', 'bifFinish', '.ok (trim (if s.b.modUpline then backspace ++ s.b.out else s.b.out)) s.sh', '.ok (if s.b.modUpline then backspace ++ s.b.out else trim s.b.out) s.sh', 'the output of a BIF with ^ is not trimmed', '^ changes nothing but the white space before', 'C110')
M('V53', 'Bifs', 'bifLang', 'def bifLang : Prog Unit := do\n  denyMods (fun b => b.modFilter || b.modNegate || b.modScope)', 'def bifLang : Prog Unit := do\n  denyMods (fun b => b.modFilter || b.modNegate || b.modUpline || b.modScope)', '^ is refused for lang', '^ is allowed everywhere', 'C110')
M('V54', 'Bifs', 'bifCode', 'def bifCode : Prog Unit := do\n  denyMods (fun b => b.modFilter || b.modNegate)\n  let _ ← extractParamsCode true', 'def bifCode : Prog Unit := do\n  denyMods (fun b => b.modFilter || b.modNegate)\n  modB (fun b => { b with modScope := b.modScope || b.modUpline })\n  let _ ← extractParamsCode true', '^ implies + for code', '^ changes nothing but white space', 'C110')
M('V55', 'Interp', 'setModifiers', "else if c = '^' then setModifiers { b with modUpline := true } r", "else if c = '^' then setModifiers { b with modUpline := true, modNegate := false } r", '^ takes back a ! before it', '^ changes nothing but white space', 'C110', 'C105')
M('V56', 'Template', 'Tpl.mergeSchemaMsgpack', 'c!"Is not a valid MessagePack data: " ++ e', 'c!"Is not a valid MessagePack data: "', 'the reason is dropped', 'reports of rejected documents', 'C60')
M('V57', 'Php', 'isArray', '  | .arr _ => true\n', '  | .arr _ => false\n', 'a list is not an array', 'answers of the bridge', 'C83')

# ---- names and options
M('AA01', 'Bifs', 'getData', '  | none => getFromKey env.f64 (dataOf s) name\n\n/-- The choice', "  | none => if startsWith c!\"_\" name then [] else getFromKey env.f64 (dataOf s) name\n\n/-- The choice", 'names beginning with _ are private', 'names do not matter', 'C111')
M('AA02', 'Bifs', 'bifEach', 'forList (eachItems collection) (fun kv => eachIter keyName valName kv.1 kv.2 blocks)', 'forList (eachItems collection) (fun kv => eachIter (if keyName = c!"_" then c!"key" else keyName) valName kv.1 kv.2 blocks)', 'the name _ is a default name', 'names do not matter', 'C111')
M('AA03', 'Bifs', 'bifFor', 'forList (forValues a b) (fun i => forIter varName (showInt i) blocks)', 'forList (forValues a b) (fun i => forIter (take 8 varName) (showInt i) blocks)'.replace('take 8 varName', 'varName.take 8'), 'long names are cut', 'names do not matter', 'C111')
M('AB01', 'Bifs', 'bifCode', 'if hasFlag s.b c!"encode_tags" then reescape false s.b.code else s.b.code', 'if hasFlag s.b c!"encode_tags" || s.sh.filterAll then reescape false s.b.code else s.b.code', 'filter_all encodes code', 'options matter only to their readers', 'C112')
M('AB02', 'Bifs', 'bifEach', 'forList (eachItems collection) (fun kv =>', 'forList ((eachItems collection).take s.sh.max) (fun kv =>', 'a loop has as many steps as the limit', 'a higher limit changes nothing', 'C112')
M('AB03', 'Interp', 'runBif', 'if sh.count + 1 > sh.max then .panic .budget\n  else bifParse env R { sh with count := sh.count + 1 }', 'if sh.count + 1 > sh.max then .panic .budget\n  else bifParse env R { sh with count := sh.max - sh.count }', 'counts what is left', 'a higher limit changes nothing', 'C112')
M('AB04', 'Bifs', 'bifVar', 'setAlias c!"unprintable"\n    setOut unprintable', 'setAlias c!"unprintable"\n    setOut (if contains c!"remove" s.sh.comments then [] else unprintable)', 'comments: remove drops the unprintable', 'options matter only to their readers', 'C112')
M('AB05', 'Bifs', 'bifLang', 'setOut s.sh.lang', 'setOut (if s.sh.cacheDisable then [] else s.sh.lang)', 'lang reads an option of the cache', 'options matter only to their readers', 'C112')

root = os.path.join(os.path.dirname(os.path.abspath(__file__)), '../../lean/Verif/Model/')
M('AC01', 'ScanCost', 'rcsLoopT', 'let l := rcsLoopT src f x.1 x.2.1\n', 'let l := rcsLoopT src f x.1 (if x.2.2 then x.2.1 else openPos + 3)\n', 'a comment that is not closed is read again', 'comments are found in linear time', 'C114')
M('AC02', 'ScanCost', 'blocksLoopT', 'let l := blocksLoopT src f e\n', 'let l := blocksLoopT src f startBody\n', 'the blocks in a block are looked for too', 'blocks are found in linear time', 'C114')
M('AC03', 'ScanCost', 'codeLoopT', 'add 2 (codeLoopT src f (level + 1) (i + 2))', 'add (2 + i) (codeLoopT src f (level + 1) (i + 2))', 'looks back to the start at each block', 'the code is found in linear time', 'C114')
M('AC04', 'ScanCost', 'gapsLoopT', '| none => add (findCost (utf8 c!":}") x) (gapsLoopT src e r)', '| none => add (findCost (utf8 c!":}") src) (gapsLoopT src e r)', 'the whole text is searched for each gap', 'blocks are found in linear time', 'C114')
M('AD01', 'Utils', 'mergeSchema', '    | .obj ao => .obj (mergeObj ao b)\n    | _ => .obj b\n  | b => b\n/-- The `for', '    | .obj ao => .obj (mergeObj ao b)\n    | _ => .obj b\n  | .str [] => a\n  | b => b\n/-- The `for', 'an empty text does not overwrite', 'documents can be grouped', 'C115')
M('AD02', 'Utils', 'mergeObj', '| none => mergeObj (a ++ [(k, v)]) r', '| none => mergeObj ((k, v) :: a) r', 'new keys come first', 'documents can be grouped, keys in their place', 'C115')
M('AD03', 'Utils', 'syncHeaders', """  match Obj.get? c!"requested-with-ajax" h with
  | some v => Obj.insert c!"REQUESTED-WITH-AJAX" v (Obj.insert c!"Requested-With-Ajax" v h)
  | none =>
    match Obj.get? c!"Requested-With-Ajax" h with
    | some v => Obj.insert c!"REQUESTED-WITH-AJAX" v (Obj.insert c!"requested-with-ajax" v h)""", """  match Obj.get? c!"Requested-With-Ajax" h with
  | some v => Obj.insert c!"REQUESTED-WITH-AJAX" v (Obj.insert c!"requested-with-ajax" v h)
  | none =>
    match Obj.get? c!"requested-with-ajax" h with
    | some v => Obj.insert c!"REQUESTED-WITH-AJAX" v (Obj.insert c!"Requested-With-Ajax" v h)""", 'another spelling is preferred', 'which spelling of the ajax header wins', 'C115')
M('AE01', 'Utils', 'escapeChar', '  else if c = \'"\' then c!"&quot;"\n', '', 'double quotes are not replaced', 'data cannot leave the value of an attribute', 'C116')
M('AE02', 'Bifs', 'bifVar', "if !startsWith c!\"CONTEXT->\" varName then reescape true out0 else out0", "if !startsWith c!\"CONTEXT->\" varName then reescape true out0 else unescapeChars true out0", 'request data are printed without the filter', 'request data cannot change the markup', 'C116')
M('AE03', 'Template', 'replacements', "replaceAll unprintable [] (dropBackspace 0 out)", "replaceAll c!\"&lt;\" c!\"<\" (replaceAll unprintable [] (dropBackspace 0 out))", 'entities are decoded in the end', 'data cannot change the markup', 'C116')
M('AF01', 'Bifs', 'bifVar', "    let out0 := getData env s varName\n    let out1 :=\n      if (s.b.modFilter", "    let out0 := if s.sh.lang = c!\"es\" then getData env s (c!\"es_\" ++ varName) else getData env s varName\n    let out1 :=\n      if (s.b.modFilter", 'variables read the language', 'a page without trans is the same in every language', 'C117')
M('AF02', 'Bifs', 'bifLang', 'setOut s.sh.lang', "setOut (match (dataOf s).get? c!\"lang\" with | some (.str l) => l | _ => s.sh.lang)", 'the data are asked for the language', 'lang reads only the language', 'C117')
M('AG01', 'Bifs', 'bifCache', 'if cacheOff s.sh hasPost hasGet hasCookies then do', 'if s.inh.inCache || cacheOff s.sh hasPost hasGet hasCookies then do', 'a cached part in a cached part is only evaluated', 'nested cached parts have entries of their own', 'C118')
M('AG02', 'Bifs', 'cacheLookup', '      | some content => setOut content\n', '      | some content => do\n        perform (.writeFile file content (env.now t))\n        setOut content\n', 'using an entry renews it', 'a text is shown at most for its lifetime', 'C118', 'C38', 'C85')
M('AH01', 'Bifs', 'bifCache', 'if s.inh.inCache then setOut s.raw', 'if false then setOut s.raw', 'excluded parts are evaluated while the cached part is stored', 'excluded parts are never stored', 'C119', 'C75')
M('AH02', 'Bifs', 'bifCache', 'if s.inh.inCache then setOut s.raw', 'if s.inh.inCache then setOut s.b.code', 'the code of an excluded part is stored without its delimiters', 'excluded parts are stored as they are written', 'C119', 'C75')
M('AH03', 'Interp', 'bifParse', 'if !only.isEmpty && !contains only name && !inh.inOnly then', 'if !only.isEmpty && !contains only name then', 'BIFs inside an excluded part are not evaluated in the second pass', 'an excluded part is evaluated as anywhere else', 'C119')
M('AH04', 'Interp', 'bifParse', '{ inh with inOnly := true }', '{ inh with inOnly := inh.inOnly }', 'the second pass does not know that it is in an excluded part', 'an excluded part is evaluated as anywhere else', 'C119')
M('AH05', 'Bifs', 'bifCache', 'if s.inh.inCache then setOut s.raw', 'if s.inh.inCache || !s.only.isEmpty then setOut s.raw', 'the second pass leaves excluded parts as they are', 'excluded parts are evaluated at every request', 'C119', 'C75')
M('AI01', 'Interp', 'bifParse', 'if !only.isEmpty && !contains only name && !inh.inOnly then', 'if !only.isEmpty && !contains name only && !inh.inOnly then', 'the second pass selects the names that are a part of !cache', 'other BIFs stay as they are', 'C120')
M('AI02', 'Interp', 'bifFinish', 'lastCoalesceOut := ne }', 'lastCoalesceOut := ne, inOnly := false }', 'the second pass goes back to selecting after each BIF', 'what follows the first excluded part is evaluated (C120_exact)', 'C120', 'C119')
M('AI03', 'Interp', 'bifParse', "    if !only.isEmpty then .ok raw sh inh\n", "    if !only.isEmpty then .ok [] sh inh\n", 'the second pass drops what has no name', 'other BIFs stay as they are', 'C120')
M('AJ01', 'Bifs', 'cacheStore', '      | none => perform (.writeFile file s.b.code (env.now t))', '      | none => perform (.writeFile file (trim s.b.code ++ c!" ") (env.now t))', 'entries end with a space', 'the cache is invisible', 'C121', 'C118')
M('AJ02', 'Bifs', 'cacheLookup', '      | some content => setOut content\n', '      | some content => do\n        let x ← childParse content s.b.modScope\n        setOut x\n', 'an entry that is found is evaluated', 'entries stand for their parts', 'C121', 'C118')
M('AJ03', 'Bifs', 'cacheLookup', '    | some true => cacheStore env restore dir file\n', '    | some true => do\n      match e.content with\n      | some content => setOut content\n      | none => cacheStore env restore dir file\n', 'expired entries are used', 'expired entries are made anew', 'C118', 'C121')
M('AK01', 'Template', 'cacheLoop', '    if contains c!"{:!cache;" out then\n      match pass', '    if contains c!"{:!cache; " out then\n      match pass', 'the second pass looks for excluded parts that start with a space', 'excluded parts are completed', 'C122', 'C119')
M('AK02', 'Bifs', 'cacheParse', '    perform (.setInCache true)\n    let x ← childParse s.b.code s.b.modScope\n    store x\n    perform (.setInCache restore)', '    let x ← childParse s.b.code s.b.modScope\n    store x', 'a cached part is stored with its excluded parts evaluated', 'what is stored does not depend on the visitor', 'C122', 'C119')
M('AL01', 'Bifs', 'bifJoin', 'argReq args 2 c!"arguments \'separator\' not found"', 'argReq args 2 c!"arguments \'array\' not found"', 'join without a separator says that the array is missing', 'the error tells which argument is missing', 'C123', 'C89')
M('AL02', 'Bifs', 'bifEach', "    if startsWith c!\"local::\" keyName || startsWith c!\"local::\" valName then", "    if startsWith c!\"local::\" keyName && startsWith c!\"local::\" valName then", 'a local value variable is accepted by each', 'each needs global variables', 'C123', 'C36')
M('AL03', 'Bifs', 'bifFor', "      | [] => bifError c!\"arguments 'to' not found\"", "      | [] => setOut []", 'for without an end does nothing, and is no error', 'for without an end is an error', 'C123')
M('AL04', 'Bifs', 'bifRand', "if x > y then bifError", "if x ≥ y then bifError", 'a range of one number is an error', 'ranges from a number to itself', 'C48', 'C123')
M('AL05', 'Bifs', 'bifCache', "      let expires ← argReq args 1 c!\"arguments 'expires' not found\"", "      let expires := argOpt args 1", 'a cache without lifetime is accepted', 'cache without a lifetime is an error', 'C123')
M('AM01', 'Interp', 'bifResult', 'bifFinish { s with sh := pushError sh1 (errorLine (env.localTime s.sh.w.tick) e) }', 'bifFinish { s with sh := pushError { sh1 with flags := [] } (errorLine (env.localTime s.sh.w.tick) e) }', 'an error forgets the flags', 'an error changes nothing but the list of errors', 'C124', 'C42')
M('AM02', 'State', 'pushError', '  { sh with schema := schema, hasError := true }', '  { sh with schema := schema, hasError := true, statusText := c!"Error" }', 'an error sets the status text', 'an error changes nothing but the list of errors', 'C124')
M('AM03', 'Bifs', 'bifElse', 'if xor s.inh.lastBifOut s.b.modNegate', 'if xor (s.inh.lastBifOut || s.sh.hasError) s.b.modNegate', 'else shows nothing after an error anywhere in the page', 'an error changes nothing else', 'C124', 'C34')
M('AM04', 'Bifs', 'bifCoalesce', 'perform (.setLastCoalesce false)', 'perform (.setLastCoalesce (← getSt).sh.hasError)', 'coalesce shows nothing after an error anywhere in the page', 'an error changes nothing else', 'C124', 'C35')
M('AN01', 'Bifs', 'bifVar', "if !startsWith c!\"CONTEXT->\" varName then reescape true out0 else out0", "(if !startsWith c!\"CONTEXT->\" varName then reescape true out0 else escapeChars true out0)", 'request data are encoded again by the filter', 'filtered data are displayed as they are', 'C125', 'C25')
M('AN02', 'Utils', 'filterValue', '  | .str s => .str (filterStr s)', '  | .str s => .str (escapeChars true s)', 'request data that are encoded already are encoded again', 'request data are displayed as they are', 'C125', 'C03')
M('AN03', 'Utils', 'filterValueKeys', '    if !(o.any (fun kv => keyNeedsChange kv.1)) then .obj (filterKeysVals o)', '    if !(o.any (fun kv => keyNeedsChange kv.1)) then .obj o', 'values below plain keys keep their keys', 'request data are found under the sanitised keys', 'C125', 'C04')
M('AO01', 'Interp', 'blocksGo', "    if sh.exit then .ok out sh inh", "    if sh.exit && prevEnd = 0 then .ok out sh inh", 'the rest of a page is evaluated after the end', 'what comes after the end does not matter', 'C126', 'C68')
M('AO02', 'Interp', 'blocksGo', "    if sh.exit then .ok out sh inh", "    if sh.exit then .ok (out ++ slice src prevEnd s) sh inh", 'the text up to the next BIF is printed after the end', 'only a rest without BIFs is printed', 'C126', 'C68')
M('AO03', 'Interp', 'blocksGo', "    if sh.exit then .ok out sh inh", "    if sh.exit then .ok (trim (out ++ src.drop prevEnd)) sh inh", 'the source of the rest is printed after the end', 'of the rest nothing is printed', 'C126', 'C68')
M('AO04', 'Template', 'finalOut', 'strLe sh.statusCode c!"599"', 'strLe sh.statusCode c!"499"', 'a page that ends in a server error shows its content', 'the rest of a replaced page does not matter', 'C126', 'C40')
M('AP01', 'Interp', 'blocksGo', "let out1 := if prevEnd < s then out ++ slice src prevEnd s else out", "let out1 := if prevEnd < s then out ++ trim (slice src prevEnd s) else out", 'white space next to a BIF is lost', 'where a BIF stands does not matter', 'C127', 'C68')
M('AP02', 'Interp', 'blocksGo', "let out1 := if prevEnd < s then out ++ slice src prevEnd s else out", "let out1 := if prevEnd + 1 < s then out ++ slice src prevEnd s else out", 'a single character between BIFs is lost', 'where a BIF stands does not matter', 'C127', 'C68')
M('AP03', 'Interp', 'blocksGo', "let out1 := if prevEnd < s then out ++ slice src prevEnd s else out", "let out1 := if prevEnd < s && (prevEnd != 0 || out.isEmpty) then out ++ slice src 0 s else out", 'the text before a BIF is printed from the start', 'where a BIF stands does not matter', 'C127', 'C68')
M('AQ01', 'Interp', 'blocksGo', "match runBif env R sh inh (slice src s e) only with", "match runBif env R sh { inh with lastBifOut := inh.lastBifOut && !(prevEnd < s) } (slice src s e) only with", 'text between two BIFs makes else forget', 'the text has no influence on the BIFs', 'C128', 'C68')
M('AQ02', 'Interp', 'blocksGo', "        blocksGo env R src only e out1 r sh inh\n", "        blocksGo env R src only e out1 r { sh with count := sh.count + 1 } inh\n", 'comments count as BIFs', 'comments have no influence on the BIFs', 'C128', 'C17')
M('AQ03', 'Interp', 'blocksGo', "    if sh.exit then .ok out sh inh", "    if sh.exit || decide (out.length > 65536) then .ok out sh inh", 'a page with much text is cut', 'the text has no influence on the BIFs', 'C128', 'C68')
M('AR01', 'Bifs', 'condBif', "    outCode\n  else .pure ()\n", "    outCode\n  else do\n    parseCode s.b.modScope\n    setOut []\n", 'a condition that does not hold evaluates its code and drops what it prints', 'code that is not reached does not matter', 'C129', 'C33')
M('AR02', 'Bifs', 'bifElse', "if xor s.inh.lastBifOut s.b.modNegate then setOut []", "if xor s.inh.lastBifOut s.b.modNegate then do\n    parseCode s.b.modScope\n    setOut []", 'an else that is not taken evaluates its code', 'code that is not reached does not matter', 'C129', 'C34')
M('AR03', 'Bifs', 'cmpBif', "  else setOut []\n\n/-- `parse_bif_contains`", "  else do\n    parseCode s.b.modScope\n    setOut []\n\n/-- `parse_bif_contains`", 'a comparison that fails evaluates its code', 'code that is not reached does not matter', 'C129', 'C33')
M('AR04', 'Interp', 'blocksGo', "        blocksGo env R src only e out1 r sh inh\n", "        blocksGo env R src only e out1 r { sh with count := sh.count + (if startsWith c!\"{:*\" (slice src s e) then 0 else 1) } inh\n", 'BIFs that coalesce skips are counted', 'the BIFs after the one that printed do not matter', 'C129', 'C35', 'C17')
M('AS01', 'Interp', 'blocksGo', "match runBif env R sh inh (slice src s e) only with", "match runBif env R { sh with count := sh.count + prevEnd } inh (slice src s e) only with", 'a BIF counts more the later it stands in its text', 'code can be exchanged with code that does the same', 'C130', 'C68')
M('AS02', 'Bifs', 'bifElse', "if xor s.inh.lastBifOut s.b.modNegate then setOut []", "if xor s.inh.lastBifOut s.b.modNegate || s.b.src.length > 4096 then setOut []", 'an else with a long code shows nothing', 'code can be exchanged with code that does the same', 'C130', 'C34')
M('AS03', 'Bifs', 'condBif', "  if xor (test st.1 st.2) s.b.modNegate then do", "  if xor (test st.1 st.2) s.b.modNegate && !startsWith c!\"!\" s.b.code then do", 'a condition whose code begins with ! does not show it', 'code can be exchanged with code that does the same', 'C130', 'C33')
M('AT01', 'FastCgi', 'be16', 'a.toNat * 256 + b.toNat', 'b.toNat * 256 + a.toNat', 'lengths are read little endian', 'answers are read as they are framed', 'C50')
M('AT02', 'FastCgi', 'readRound', 'match readExact pad.toNat s with', 'match readExact 0 s with', 'padding is not skipped', 'answers are read as they are framed', 'C50')
M('AT03', 'FastCgi', 'readExact', 'if n ≤ s.length then', 'if n < s.length then', 'the last bytes of an answer are not read', 'answers are read as they are framed', 'C50')
M('AT04', 'FastCgi', 'readRound', 'if be16 i1 i0 ≠ 1 then', 'if be16 i1 i0 ≠ 0 then', 'records of another request are taken for ours', 'answers are read as they are framed', 'C50')
M('AT05', 'FastCgi', 'readRound', 'else if type = 7 then .next s out (err ++ content)', 'else if type = 7 then .next s (out ++ content) err', 'the errors of PHP are part of its output', 'answers are read as they are framed', 'C50')
M('AT06', 'Template', 'movetoInner', '    | none => movetoInner r out\n', '    | none => some out\n', 'code to be moved to a tag that is missing stops the moves', 'moveto moves each distinct code', 'C37')
M('AT07', 'Template', 'movetoOuter', '  | _ :: r, out => movetoOuter r out', '  | _ :: _, out => some out', 'a wrong entry stops the moves', 'moveto moves each distinct code', 'C37')
M('AT08', 'Template', 'afterWs', 'stripPrefix? mark (s.dropWhile isWs)', 'stripPrefix? mark s', 'the modifier ^ does not remove the white space', '^ removes the white space before', 'C69', 'C47')
for m in L:
    n = open(root + m['file'] + '.lean').read().count(m['old'])
    if n != 1: print(m['id'], 'applies', n)
json.dump(L, open(os.path.join(os.path.dirname(os.path.abspath(__file__)), 'mutations.json'), 'w'), indent=0)
print(len(L))
