import json
notes=json.load(open('/verif/tools/notes.json'))
H = {
'C01':('`escapeCow`, `escapeChars` (utils.rs:677)','induction on the string against the character classes of Spec/Html'),
'C02':('`unescapeGo`, `entityText` (utils.rs:757)','entity parser invariant; injectivity follows from the round trip'),
'C03':('`filterStr`, `filterValue` (utils.rs:805)','mutual induction over values'),
'C04':('`filterContext` in `initShared` (template.rs:412)','shape of the schema at the start of every render; mutual induction'),
'C05':('`filterValueKeys`','accumulator invariant of the rebuilding loop; collision witness'),
'C06':('`mergeSchema`, `mergeSchemaOwned`','mutual induction; the specification speaks of the value at each path'),
'C07':('`syncHeaders`, `stampVersion`','case analysis over the three spellings'),
'C08':('`updateSchema(Owned)`','witness; objects by shape preservation of the merge'),
'C09':('`resolvePointer`, `getFromKey`','induction on the scanned name against a walk along path segments'),
'C10':('`param`, `snippet`, `declare` bodies','symbolic execution of set, then of get, through the block scope; readName for arbitrary scopes'),
'C11':('`is*_key`','case analysis, for all schemas and names'),
'C12':('`matchRec`','equivalence with an inductive language of patterns'),
'C13':('`bifAllow`','symbolic execution; allowOut against the wildcard language'),
'C14':('`extractBlocks`','scanner invariants; every block lies on delimiters, blocks are disjoint and ordered'),
'C15':('`extractBlocks`','induction on a grammar of well-nested templates'),
'C16':('`removeComments`','grammar of templates with closed comments; witnesses for unclosed ones'),
'C17':('`blocksGo`','comment blocks are skipped in any context, the result does not depend on their text'),
'C18':('`codePosGo`','nesting depth defined independently on the text'),
'C19':('`runBif`, `runBlocks`','counter invariant over all programs; fuel `max+1` is enough'),
'C20':('`cacheLoop`','diverging witness; every other iteration consumes budget'),
'C21':('`step`, renderWith','relation kept by every operation and composed over whole renders'),
'C22':('`pushError`','prefix relation on the error list, all API histories'),
'C23':('`blocksGo`, `exit` bodies','mark-set relation; agreement of runs that differ in what would have followed'),
'C24':('`createBlockSchema`, `runChild`, `dropBlock`','level invariant: a block writes only scopes numbered above its parents'),
'C25':('`bifVar`','symbolic execution against Spec/Html'),
'C26':('second pass of `render`','no delimiter can arise in outputs of text and separated variables; witnesses'),
'C27':('`requireAllow`','symbolic execution'),
'C28':('render fast path and main path','equational'),
'C29':('`handleUnmatched`','grammar prefix followed by a stray `:}`'),
'C30':('render, render_once','equality of the two initialisations'),
'C31':('render twice','frame of the template fields; witness'),
'C32':('render after render_once','witness for every template'),
'C33':('condition bodies','symbolic execution, also with computed conditions'),
'C34':('`bifElse`, lastBifOut','symbolic execution of pairs; blank-output witness'),
'C35':('`bifCoalesce`, `blocksGo`','induction over the alternatives'),
'C36':('each, for','relational semantics of rounds (Spec/Loop), soundness for every number of rounds'),
'C37':('moveto body, `applyMoveto`','keyed pending list; insertion positions against Spec/Moveto'),
'C38':('cache body','hit/miss/store cases; key separation up to the hash'),
'C39':('CacheFs','invariant over all interleavings, failures and crashes'),
'C40':('`finalOut`','string order of codes'),
'C41':('`redirectPlan`','classification of the types'),
'C42':('`bifParse`','all names and texts'),
'C43':('whole interpreter','shape invariant of the schema (SaneSchema) kept by every operation'),
'C44':('code, include','output has no delimiter, nothing is evaluated'),
'C45':('`bifTrans`','symbolic execution'),
'C46':('`bifFetch`','two environments with different scripts agree after the mark'),
'C47':('`replacements`','scanner induction; witness'),
'C48':('rand, sum, lang','symbolic execution'),
'C49':('`replaceAll`, replace body','induction; decomposition specification'),
'C50':('FastCgi','independent relational wire format, unique decoding'),
'C51':('`writeRecord`','length bound; witness'),
'C52':('`bifInclude`','symbolic execution; list growth over renders'),
'C53':('`step` setStatus, handleUnmatched','invariant over all histories'),
'C54':('data body','symbolic execution, merge specification of C06'),
'C55':('render','fresh shared state; stale fast path witness'),
'C56':('`readLoop`','prefixes of record streams'),
'C57':('locale body','as C54'),
}
extra=json.load(open('/verif/tools/how.json')) if __import__('os').path.exists('/verif/tools/how.json') else {}
H.update({k:tuple(v) for k,v in extra.items()})
man={c['property']:c for c in json.load(open('/verif/MANIFEST.json'))['claims']}
rows=[]
for l in open('/verif/properties.jsonl'):
    d=json.loads(l); i=d['id']
    a,b=H.get(i,('',''))
    st=man.get(i,{}).get('status','-')
    rows.append(f"| {i} | {d['title']} | {a} | {b} | {st} |")
t=open('/verif/tools/design_head.md').read()
open('/verif/DESIGN.md','w').write(t.replace('@@TABLE@@','\n'.join(rows)).replace('@@NOTES@@','\n'.join(f"* **{k}**: {v}" for k,v in sorted(notes.items()) if man.get(k,{}).get('status')=='partial')).replace('\n@@EXTRA@@',''))
