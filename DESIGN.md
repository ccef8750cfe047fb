# Formal model of neutralts (crate 1.4.3) in Lean 4

## 1. Shape of the model

* `Verif/Model/*` is the program, function by function, with file/line citations.
  * `Str.lean` – Rust string functions used by the crate (`find`, `replace`, `split`, `trim`, integer
    parsing and printing). A string is a list of Unicode scalar values (`List Char`). Positions in
    the model are scalar positions, in the code byte positions of UTF‑8 text; that this makes no difference, and where
    a byte position panics, is proved (C86, `Bytes.lean`).
  * `Value.lean` – `serde_json::Value` with `preserve_order` (objects are insertion ordered association
    lists), `Index`/`IndexMut`, `pointer`.
  * `Utils.lean` – `src/utils.rs` complete.
  * `State.lean` – `Shared`, `BlockInherit`, `Bif` fields, world (files, clock ticks).
  * `Prog.lean` – BIF bodies are written in a free monad `Prog` whose operations are the *effects* the Rust
    code performs (write a data key, set the status, `create_block_schema`, child parse, ...). `run`
    gives their meaning on the state. Invariants of *every* execution are proved by induction over
    `Prog` and over the recursion depth, not per BIF.
  * `Bifs.lean` – one definition per `parse_bif_*.rs`, all of them, and the dispatch table.
  * `Interp.lean` – `Bif::new`, `Bif::parse`, `BlockParser::parse(_with_blocks)`, the child-parse macro.
  * `Template.lean` – `Template` and `Shared::new`, the constructors and setters, `render`, `render_once`,
    `ends_render`, the default schema.
  * `FastCgi.lean` – `exec_php.rs`: request framing, response loop, HTTP body, error mapping.
  * `Cost.lean` – the calls of `wildcard_match`, counted;
  * `Client.lean` – the browser script `NEUTRAL_JS`: elements, listeners, requests, answers, events, the body of a form;
  * `CacheRm.lean` – one cache entry with the files behind its name, renders and runs of the cleaning script, call by call;
  * `Clean.lean` – the script `cache-utils/clean-cache`: its argument, names, ages in the shell's arithmetic, removals and report;
  * `CacheFs.lean` – the cache file of `parse_bif_cache.rs` under concurrent renders, one system call at a time,
    with failures and crashes at any point.
  * `Python.lean` – `exec_python.rs`: the import of a script, the schema attributes and the call, one step at a time, for
    any number of renders in one process (one interpreter).
  * `Bridge.lean` – how the bridge script of PHP objects gets to its place, call by call;
  * `Php.lean`, `Venv.lean` – the PHP side of `{:obj;` and the search for a Python virtual environment.
  * `Bytes.lean` – the functions that address text by bytes (`extract_blocks`, `remove_comments`, `get_code_position`,
    `set_modifiers`, `resolve_pointer`, `find_tag_position`, the insertion of `set_moveto`, `extract_http_body`) a second time, as
    the code writes them: lists of bytes, `while` loops, `str::find`, slices that panic off a character boundary.
* `Verif/Spec/*` – the small specifications theorems refer to, written without the model's helpers (character
  classes, path walks, grammars of templates, evaluation relations, the FastCGI wire format, API histories).
* `Verif/Lemmas/*` – proofs about the model; `Verif/Props/*` – the property theorems (`Cnn_…`), each with a
  concrete non-trivial instance of its hypotheses beside it.
* Recursion: a BIF may parse children. `runBlocks fuel` is structurally recursive in `fuel`; the result `oof`
  ("out of fuel") is *proved unreachable* when `fuel ≥ infinite_loop_max_bifs`, so the model loses nothing
  (this is property C19). The `while` loop of `render` can really diverge (C20): its model takes an iteration
  count, and divergence is "out of iterations for every count".
* Rust panics are an explicit result `panic`.

## 2. Environment (universally quantified)

Everything below is a field of the structure `Env` and every theorem holds for every `Env` unless it states a
hypothesis on it: f64 parsing/printing/addition, `to_lowercase`, JSON text parsing/printing, MD5/SHA‑256,
the clock, random numbers, chrono formatting, `canonicalize`/`parent`, success of directory/file creation,
the Python/PHP executors (`exec_obj`), whether integer overflow is checked, temp and working directory.
The file system inside one render is a function from path strings to entries and is changed only by the
render itself (interference is modelled separately in `CacheFs.lean`).

## 3. Trusted base

* Lean 4.33.0's kernel. No axioms are declared; `AXIOMS.txt` (written by `tools/axioms.sh`) lists, for every
  theorem of the manifest, the axioms it depends on: at most `propext`, `Classical.choice` and `Quot.sound`. Nothing is
  decided by compiled code; `decide +kernel` (concrete witnesses and examples only) is evaluation by the kernel.
* The hand translation from Rust to the model, cited line by line, and the meaning given to Rust's standard library,
  serde_json (with `preserve_order`) and the `regex` replacement of `\s*X`.
* Evidence for the translation (not part of the proofs): `tools/conformance` extracts the template tests of the crate
  (tests written as source/expected pairs in /repo) and evaluates the model on them; 770 of 790 agree, the rest depend on things
  outside the model (Python/PHP objects, the clock, files of the test suite that the extraction does not provide).

Not modelled: `eprintln!` output, timing (`get_time_duration`), MessagePack decoding (a decoded value enters
through the same merge), pyo3's conversions of values, the Python and PHP interpreters (the bridge script and the environments of Python objects are modelled), sockets and time-outs below `read`/`write`, memory limits and
stack depth, non UTF‑8 paths, path aliasing, C/Python bindings, `Value` integers beyond i64/u64 (integers are unbounded
in the model; only their parsing into i32/u64 is range checked).

## 4. Properties and how each is proved

| Id | Property | Modelled by | Proof | Status |
|----|----------|-------------|-------|--------|
| C01 | escape_chars leaves no raw special character | `escapeCow`, `escapeChars` (utils.rs:677) | induction on the string against the character classes of Spec/Html | proved |
| C02 | unescape_chars undoes escape_chars | `unescapeGo`, `entityText` (utils.rs:757) | entity parser invariant; injectivity follows from the round trip | proved |
| C03 | Filtering is idempotent (no double encoding) | `filterStr`, `filterValue` (utils.rs:805) | mutual induction over values | proved |
| C04 | All request (CONTEXT) data is sanitised before the template runs | `filterContext` in `initShared` (template.rs:412) | shape of the schema at the start of every render; mutual induction | proved |
| C05 | Sanitising CONTEXT loses no entry | `filterValueKeys` | accumulator invariant of the rebuilding loop; collision witness | partial |
| C06 | Schema merge: last writer wins, recursively, nothing else is lost | `mergeSchema`, `mergeSchemaOwned` | mutual induction; the specification speaks of the value at each path | proved |
| C07 | update_schema keeps the ajax header in three spellings and stamps the version | `syncHeaders`, `stampVersion` | case analysis over the three spellings | proved |
| C08 | Schema update never panics | `updateSchema(Owned)` | witness; objects by shape preservation of the merge | partial |
| C09 | Variable paths resolve to the value stored at that path | `resolvePointer`, `getFromKey` | induction on the scanned name against a walk along path segments | proved |
| C10 | Whatever is set under a name can be read back under that name | `param`, `snippet`, `declare` bodies | symbolic execution of set, then of get, through the block scope; readName for arbitrary scopes | partial |
| C11 | Truth tests on data agree with each other | `is*_key` | case analysis, for all schemas and names | proved |
| C12 | Wildcard matching follows its specification | `matchRec` | equivalence with an inductive language of patterns | proved |
| C13 | allow only lets whitelisted text through | `bifAllow` | symbolic execution; allowOut against the wildcard language | proved |
| C14 | Block extraction is sound | `extractBlocks` | scanner invariants; every block lies on delimiters, blocks are disjoint and ordered | proved |
| C15 | Block extraction is complete on well-formed templates | `extractBlocks` | induction on a grammar of well-nested templates | proved |
| C16 | Comment removal removes comments and nothing else | `removeComments` | grammar of templates with closed comments; witnesses for unclosed ones | partial |
| C17 | Comments are never executed and never printed | `blocksGo` | comment blocks are skipped in any context, the result does not depend on their text | proved |
| C18 | The parameter/code separator is the first top-level >> | `codePosGo` | nesting depth defined independently on the text | proved |
| C19 | Rendering is bounded by infinite_loop_max_bifs | `runBif`, `runBlocks` | counter invariant over all programs; fuel `max+1` is enough | proved |
| C20 | render always returns | `cacheLoop` | diverging witness; every other iteration consumes budget | partial |
| C21 | Templates cannot change configuration | `step`, renderWith | relation kept by every operation and composed over whole renders | proved |
| C22 | Errors are never lost | `pushError` | prefix relation on the error list, all API histories | proved |
| C23 | exit stops evaluation | `blocksGo`, `exit` bodies | mark-set relation; agreement of runs that differ in what would have followed | partial |
| C24 | Block scope isolation | `createBlockSchema`, `runChild`, `dropBlock` | level invariant: a block writes only scopes numbered above its parents | proved |
| C25 | Variable output cannot inject template code | `bifVar` | symbolic execution against Spec/Html | proved |
| C26 | Rendered data is never evaluated as template code | second pass of `render` | no delimiter can arise in outputs of text and separated variables; witnesses | partial |
| C27 | Dynamic variable names require allow | `requireAllow` | symbolic execution | proved |
| C28 | Plain text is rendered unchanged | render fast path and main path | equational | proved |
| C29 | An unmatched closing delimiter is reported as 500 | `handleUnmatched` | grammar prefix followed by a stray `:}` | proved |
| C30 | render_once equals render | render, render_once | equality of the two initialisations | proved |
| C31 | render can be repeated | render twice | frame of the template fields; witness | partial |
| C32 | A template remains usable after render_once | render after render_once | witness for every template | partial |
| C33 | Conditional BIFs: exact complement and short circuit | condition bodies | symbolic execution, also with computed conditions | proved |
| C34 | else is the complement of the previous BIF | `bifElse`, lastBifOut | symbolic execution of pairs; blank-output witness | partial |
| C35 | coalesce evaluates up to the first non-empty BIF | `bifCoalesce`, `blocksGo` | induction over the alternatives | proved |
| C36 | Loops restore the variables they use | each, for | relational semantics of rounds (Spec/Loop), soundness for every number of rounds | partial |
| C37 | moveto moves each distinct code once | moveto body, `applyMoveto` | keyed pending list; insertion positions against Spec/Moveto | partial |
| C38 | Cache transparency | cache body | hit/miss/store cases; key separation up to the hash | partial |
| C39 | Cache files are complete | CacheFs | invariant over all interleavings, failures and crashes | partial |
| C40 | Error statuses replace the content | `finalOut` | string order of codes | partial |
| C41 | Redirect accepts only the documented types | `redirectPlan` | classification of the types | partial |
| C42 | Malformed or unknown BIFs never produce output | `bifParse` | all names and texts | partial |
| C43 | Templates cannot crash the renderer | whole interpreter | shape invariant of the schema (SaneSchema) kept by every operation | partial |
| C44 | safe code is inert | code, include | output has no delimiter, nothing is evaluated | proved |
| C45 | Translation falls back to the text | `bifTrans` | symbolic execution | partial |
| C46 | The fetch script is emitted at most once | `bifFetch` | two environments with different scripts agree after the mark | proved |
| C47 | Unprintable and upline marks never reach the user | `replacements` | scanner induction; witness | partial |
| C48 | rand respects its range, sum adds its arguments, lang prints the language | rand, sum, lang | symbolic execution | proved |
| C49 | Replacement is complete | `replaceAll`, replace body | induction; decomposition specification | proved |
| C50 | FastCGI framing is correct | FastCgi | independent relational wire format, unique decoding | proved |
| C51 | PHP objects receive payloads of any size | `writeRecord` | length bound; witness | partial |
| C52 | include once | `bifInclude` | symbolic execution; list growth over renders | proved |
| C53 | Status text always corresponds to the status code | `step` setStatus, handleUnmatched | invariant over all histories | proved |
| C54 | Local data survives loading more local data | data body | symbolic execution, merge specification of C06 | partial |
| C55 | The reported status and errors are those of the last render | render | fresh shared state; stale fast path witness | partial |
| C56 | A PHP answer that is cut short is an error | `readLoop` | prefixes of record streams | partial |
| C57 | Loaded translations are merged with the earlier ones | locale body | as C54 | proved |
| C58 | eval decides by the evaluated text of its condition | eval body | symbolic execution through the two nested evaluations, for every condition, code and modifier | proved |
| C59 | join prints every element, separated | join body | symbolic execution, data walk of C09, `Items` by induction over the collection; witness for numbers in arrays | partial |
| C60 | The schema of a template is the default schema updated by the documents merged, in order | Tpl constructors and merge calls | `Built` histories; induction over the list of merged documents using C06/C07 | proved |
| C61 | A render changes no files other than its cache files and the PHP bridge script | `step` writeFile, cache body | guarded relation on the file system kept by every operation, composed over whole renders | proved |
| C62 | A Python object runs its own script | `Model/Python.lean`: interpreter state (sys.path, sys.modules), exec_py step by step, any schedule | invariant of the module table over all schedules; witness for scripts of the same name | partial |
| C63 | A Python object sees the schema and schema data of its own call | `Model/Python.lean` | per-call invariant over all schedules of threads; witness of interference | partial |
| C64 | An object calls its script once with what its definition says, and shows its result | body of obj, scripts are any function of `Env` | symbolic execution against a specification of the definition, for every state; composition (C68) for the code shown; witness of injection | partial |
| C65 | debug shows data only while a fresh debug file exists | body of debug, files and ages of `World`/`Env` | symbolic execution for every state, against the case distinction `Spec.DebugState` | proved |
| C66 | File names computed from data need an allow list | bodies of include, data, locale | symbolic execution for every code and state; witness | partial |
| C67 | A missing file shows nothing, and is an error when required | bodies of include, data, locale, files of the world | symbolic execution for every code and state | proved |
| C68 | Templates are evaluated compositionally | `Interp.lean` against the big-step relation `Spec.Produces` | equivalence by induction over blocks; nested scopes; fuel monotonicity | proved |
| C69 | A BIF prints its output without surrounding white space, and ^ removes the white space before it | `Interp.lean`: `runBif`, output of a BIF | symbolic execution for every body, mods and state; trimming against a declarative `Spec.Trimmed` | proved |
| C70 | The flags of code do what they say | bodies of code and flg | symbolic execution for every flag set; `flag_mem` relates words to the collected text; witness for encode_tags | partial |
| C71 | Definitions are accepted only where they are documented | bodies of param, snippet, declare | symbolic execution for every definition and state; witness for computed file names | partial |
| C72 | include evaluates the file in its place, and file names beginning with # belong to the directory of their file | bifInclude, resolveFilePath, childParse, bifSnippet (Model/Bifs.lean, Model/State.lean) | symbolic execution of include for every recursion handler and file system; the directory is an invariant of every operation except the one of snippet | partial |
| C73 | hash, date, neutral and count print what is documented | bifHash, bifDate, bifNeutral, bifCount (Model/Bifs.lean); md5, random source, clock and chrono formatting are parameters of the environment | symbolic execution for every recursion handler and environment | partial |
| C74 | fetch prints the element of the documentation | bifFetch, fetchDiv (Model/Bifs.lean) | symbolic execution; the six substitutions are followed piecewise (a pattern cannot span a quote, space or line end) | partial |
| C75 | What is excluded from the cache is evaluated at each request and never stored | bifCache, cacheOff (Model/Bifs.lean) | symbolic execution for every recursion handler | proved |
| C76 | A BIF changes only what it is documented to change | `runBlocks`, `runBif`, all BIF bodies | an evaluator that gives up on the excluded BIFs, shown to agree with the model where it succeeds; frame relations by induction on depth over the table of effects of the bodies | proved |
| C77 | Templates mean what they say | `runBlocks`, `parseSrc`, `runBif` and the bodies of var, array, bool, defined, filled, same, contains, else, coalesce, code, each, for, param, trans, include, snippet, replace, allow, eval, hash, join, data, locale, lang, mark; `Tpl.render`; the language, how it is written and what it means are in Spec/Lang.lean | mutual induction on the template; every BIF by its own exact theorem (C10, C25, C33-C36, C13, C45, C49, C54, C58, C59, C70, C72), the blocks and their tables of definitions by an invariant, composition by C68, depth by C19 | proved |
| C78 | Filtered templates print no raw data | the language of C77; Spec/LangUse.lean (texts of a template, what an output is made of) | mutual induction on the template with an invariant on the data and the parameters; then C77 and C01 | proved |
| C79 | Renders leave the variables as they were | the language of C77 | mutual induction on the template with a relation between the values before and after; then C77 | proved |
| C80 | The output depends only on the variables that are named | the language of C77; names and first keys in Spec/LangUse.lean | mutual induction on the template relating two executions; then C77 twice | proved |
| C81 | A file or snippet means what its text means | the language of C77; `inlineAll` in Spec/LangUse.lean | mutual induction on the template: both templates mean the same; then C77 twice | proved |
| C82 | The options of the schema take effect | `Shared.new`, `Tpl.render`; the options are specified in Spec/Options.lean | case analysis on the schema; C21 for the whole render; C77 with the options of the schema | proved |
| C83 | A PHP object gets the value of its function | `bridge` (Model/Php.lean), `execPhp`; PHP arrays in Spec/Php.lean | composition of C50 (request, response) with the bridge script, for all scripts | proved |
| C84 | A Python object runs in its virtual environment | `setupVenv`, `execIn`, `history` (Model/Venv.lean) | execution of one call; induction over histories; witness | partial |
| C85 | Cached parts of a page over all requests | the language of C77 with cached parts (Spec/Page.lean: `cachedOf`, `pageMeans`, `History`), the whole render (Model/Template, Bifs.bifCache) | simulation of the page part by part (C85_render, on top of C77 and C38), then induction over histories of visits | proved |
| C86 | Byte positions never split a character | both sides: the byte loops of the code (Model/Bytes.lean) and the character functions used everywhere else (Model/Utils, Interp, Template, FastCgi) | refinement: every byte loop equals the image of the character function (UTF-8 is prefix free and self-synchronising, Lemmas/Utf8.lean); the loop counters are proved sufficient | proved |
| C87 | The list of errors tells what failed | `bifResult`, `bifParse`, `errorLine`, `oneLine`, all bodies (Model/Interp, Model/Bifs) | Props/ErrorText: every body raises only errors carrying its own name, file and text (structural traversal of all bodies); Props/Errors: induction over programs, blocks, nesting and passes gives an iff between the entries of the list and the BIFs evaluated (`Evaluates`, `PassOf`) that complain | proved |
| C88 | No more errors than BIFs | `runBif` (count), `pushError` | Props/Errors: the relation `errors + count` as an invariant of every step (`Closed`), where recording an error is paid by the counting of the BIF | proved |
| C89 | Error messages come from a fixed list | `bifError` in all bodies (Model/Bifs), table `Spec.messages`/`Spec.messageForms` | Props/Messages: structural traversal of all bodies, each `bifError` checked against the table of its BIF; combined with C87 and the history of calls (`Reach`) | proved |
| C90 | What a render depends on | `Env` (everything the bodies take from outside), all bodies (Model/Bifs), render (Model/Template) | Props/Depends: for each body, equality of the two programs unless the BIF is in the table `Spec.usersOf`; two-run induction over the evaluation (`Evaluates`, `PassOf`) | proved |
| C91 | Which files a render depends on | `World.fs`, all bodies (Model/Bifs), `step`/`run` (Model/Prog), render (Model/Template) | Props/Reads: each body's continuation after reading the state is shown equal under a change of files where it does not look (`Sees`, `body_sees`); two-run simulation up to the files in X through `step`, blocks, passes and the render | proved |
| C92 | What a render reports was asked for by a BIF evaluated in it | Model/Prog (operations), Model/Interp, Model/Template; evaluation of BIFs as in C87 (Evaluates, PassOf) | Props/Cause: a predicate on the state that is unaffected by the bookkeeping and that is false at the beginning and true at the end of a render turned true at one operation of one evaluated BIF (induction on programs, blocks, levels and passes); the table of effects of every BIF tells its name | proved |
| C93 | What a page that ends early answers | whole render: pages of Spec/Page followed by an `Ending` (Spec/Answer) | soundness of the parts (C85) up to the end, C23_effect / C41_accepted for the end, the stop rule of C68 for the rest, C40 for the answer; C75_ends: whether a BIF is inside a cached part is a matter of nesting only | proved |
| C94 | The BIF limit bounds evaluations, not output | Interp/Bifs (`for`), Template.render; meaning of Spec/Lang | induction over the rounds of the meaning of a loop, then C77_render; the witness is an instance of the theorem with the full 32-bit range | proved |
| C95 | clean-cache removes expired cache entries and nothing else | Clean (the whole script); Spec/Clean | induction over the two loops; names and numbers against a separate specification (hexadecimal and decimal digits, value of a numeral, 64-bit wrap around) | proved |
| C96 | Cleaning the cache is not noticed by renders | Clean and the cache of Bifs; meaning of pages (Spec/Page) | the name of an entry determines its lifetime; the parts of a page find the same fresh entries with and without what was removed; then C85_render twice; witnesses for the last second, octal, huge and odd lifetimes | partial |
| C97 | Cleaning the cache while pages are rendered | Model/CacheRm.lean: one entry as a name and the files behind it, its directory, renders, runs of the script, a clock; every system call is a step | induction on histories over the sorted steps (`step_does`): origin of bytes, what a render has seen is still there, the decision before a removal, a young entry stays, completeness under a lock; concrete histories for the refutation | partial |
| C98 | Matching a word takes polynomial time in the text | Model/Cost.lean: the recursion of `wildcard_match` with its calls counted; the same answers as Model/Utils.lean | structural induction on the word; n stars for the lower bound | proved |
| C99 | The browser script sets up each element once | Model/Client.lean: elements with classes, listeners, requests and answers of `NEUTRAL_JS`; every event is a step | invariant over histories: each class an element came with is still there or has had its effect once (`Books`); after loading no element of the document has a class left (`Ready`) | proved |
| C100 | Every fetch request ends with one event | Model/Client.lean: requests, answers, failures, events | the same invariant: the number of events of a request; a concrete history for the refutation | partial |
| C101 | A fetch form sends its successful controls, each once | Model/Client.lean: `body`, from the controls of a form | list reasoning; a concrete form for the refutation | partial |
| C102 | One submission of a fetch form at a time | Model/Client.lean: delays, disabled buttons, errors on buttons | invariant: submissions under way and errors shown are at most the disabled flag; a form that is stuck stays so (`C102_stuck`), and a history that reaches it | partial |
| C103 | Counters | bifCount, i32Add, setData, getData | symbolic execution of the BIF: the four outcomes exactly (C103_set, C103_next, C103_not_number), and that a stored number is what the next use reads (C103_again) | proved |
| C104 | How deep evaluations nest | the bound n of runBlocks counts evaluations inside each other | C104_limit: least bound by C19_terminates; C104_written: the induction of C77 with the depth of the template; C104_self: induction over the bound, symbolic execution of include | proved |
| C105 | How a BIF is written | two evaluations of the same body whose states differ in the text and the source of the BIF only | relational: ResSim is shown for every operation and every body (sources related by equality, or by having the same parts), then lifted through Bif::parse; counterexample inside of a cache evaluated in the kernel | partial |
| C106 | Flags only where they are taken | the first steps of every body: modifiers, parameters, flags | one lemma per shape of a body (denyFlags, denyFlgParams, checkFlags), instantiated by unification with each body; data, locale, allow, sum by symbolic execution | partial |
| C107 | Arguments are the texts between the delimiters | extract_args and the bodies with arguments | relational: two states that differ only in the text, the source and the spelling of the arguments go through every such body alike; C107_compare, C107_sum, C107_replace: symbolic execution after the arguments | partial |
| C108 | What a call of a PHP object reports | `execPhp`, `readRound`, `endpointOk` (Model/FastCgi), `bridge` (Model/Php); the stages are specified in Spec/PhpCall.lean (`Reports`) | C108_reports and C108_only: case analysis over the stages, both directions; C108_version, C108_http, C108_stderr: with the stream lemmas of C50; C108_large: C51 | proved |
| C109 | Every PHP object is served by the whole bridge script | Model/Bridge: transition system of `ensure_bridge_script`, one system call at a time | invariant over all histories: every byte is of the script or a hole, and the last to create the file has written it up to its position | partial |
| C110 | The modifier ^ changes nothing but white space | Lemmas/Blind (every body), Spec/Upline, Props/Upline | a simulation between the run of a body and the run with another modifier ^ and another text, closed under bind and every operation; proved body by body; then carried to the end of the BIF and to templates | proved |
| C111 | The names of variables do not matter | Spec/Rename (renaming of names, nodes, sites), the language of Spec/Lang and its meaning | relational induction over the two programs (`agree2_all`): memories related by the renaming stay related and print the same; then C77_render for both | proved |
| C112 | An option of the configuration matters only to the BIFs that read it | Spec.readersOf (which BIFs read an option), the whole interpreter under two configurations | a simulation body by body (Lemmas/Tune: `Deaf`, `deaf_body`), then over the nesting of evaluations and the passes of a render (`tune_renderWith`); the two states differ only in the options (`Tuning.on`) | proved |
| C113 | Templates can be refactored by laws | Spec/Laws (`Swap`: the laws, closed under every context of the language) | each law is proved of the meanings (Spec/Lang), which are shown to be blind to the number of BIFs (`blind_all`) and to be congruences (`ins_*`, `swap_sound`); then C77_render for both templates | proved |
| C114 | How much of a text the scanners read | The scanning loops of src/utils.rs over bytes (Model/Bytes.lean) with a count of the positions `str::find` looks at and of the bytes read (Model/ScanCost.lean); copying, allocation and the substring search's inner comparisons are not counted. | The counted functions are proved to give the results of the functions of Model/Bytes.lean (`C114_same_*`), which C86 relates to the text model; the bounds are proved by induction over the loops, relating the work of a search to the position it ends at (`Works`, `WorksIn`); the lower bound `C114_worst` is proved for every number of unclosed openings. | proved |
| C115 | In which groups and in which order documents are merged into the schema | merge_schema and update_schema as in C06/C07; templates made by any sequence of calls (`Built`, C60). What a document says is stated by paths (`says`), independently of the merge. | Grouping is proved by induction on the size of the second document with extensionality of ordered objects (same keys in the same order, same values); order by showing that what a merge says at a path is what the second document says if it decides the path and what the first says otherwise. Exactness (`C115_order_exact`), the excluded case (`C115_groups_refuted`) and the ajax header (`C115_ajax`, `C115_ajax_refuted`) are theorems too. | proved |
| C116 | Data cannot change the markup of a page | The language of C77 (Spec/Lang.lean) as rendered by the modelled `Template::render`; the tokenizer of the HTML standard for tags, attributes, comments, doctypes and text elements (Spec/Markup.lean: `Place.step`, `markup`, `tags`), a check of templates (`endsAll`) and the markups a template can have (`ShapeAll`).  Not in the HTML reader: scripts after `<!--`, foreign elements, noscript and plaintext (they lead to a place that is never accepted); what a browser does with the value of an attribute (a `javascript:` link) is not markup. | Induction over templates: every output is read from a place for data to the place the check gives, with a markup of the template (`leads_node`); trimming and the marks of the second phase (`&#9224`, `&#0;`) do not change the reading because `&` and white space stand at places for data; with C77, C78 and C47 for the render. | proved |
| C117 | What of the definitions and options a page depends on | The language of C77 as rendered by the modelled `Template::render`, with two sites and two sets of definitions; what a template reads is Spec/Setting.lean (`thingsAll`, `SameThing`). | A relation between two evaluations (`Even`: same data, count and last outputs, same sections of the definitions if they are read), kept by every construct (`paired_node`), and C77 for both renders. | proved |
| C118 | Cached parts in cached parts | The language of C77 with cached parts in cached parts (Spec/Nest.lean: `piecesMean`, `Asked`, `AgedText`), the whole render (Model/Template, Bifs.bifCache). | Simulation of the page part by part, with the files and the clock changing inside the evaluation of a part (`SoundIn`, `sound_piece`), then an invariant of the entries (`Stocked`) over histories of requests. | partial |
| C119 | Excluded parts of cached parts | The language of C77 with cached parts and excluded parts (Spec/Holes.lean: `itemsMean`, `holesShow`, `FilledBy`), the whole render with its second pass over `{:!cache;` (Model/Template, Bifs.bifCache, Interp.bifParse with only and inOnly). | Simulation part by part of the first pass (`sound_item`), a transfer theorem for code evaluated inside an excluded part in the second pass (`carried`: a relational invariant of the interpreter over all BIFs), a run of the second pass over the incomplete page (`holes_run`), and an invariant of the entries over histories (`StockedItems`). | partial |
| C120 | Code that is shown as text stays text | `render` with its second pass (Model/Template: cacheLoop, pass; Interp.bifParse with only and inOnly). | Run of the second pass up to the first excluded part (`before_run`), and transfer of the ordinary evaluation to it from there (`carried_selected`, `produces_carried`); witnesses. | partial |
| C121 | The cache is invisible to requests it need not tell apart | The language of C77 with cached parts in cached parts (Spec/Nest.lean: `piecesMean`), kinds of requests and histories of them (Spec/Invisible.lean: `Kind`, `Faithful`, `Served`), the whole render through C118. | An invariant of the entries (`Holds`: what an entry holds is what its part shows) over histories, by induction on the nesting; for the templates a relational induction over the language (`det_node`: two memories that agree where they are looked at) and two inductions for what is kept (`kd_node`, `kf_node`). | proved |
| C122 | With excluded parts, every visitor gets the page the cache is not needed for, up to white space | As C119 and C121: pages with cached and excluded parts (Spec/Holes.lean), kinds of requests, and what a page of a kind leaves and shows without a cache (Spec/Unseen.lean: `leavesAll`, `pass`, `bareAll`, `ServedItems`), the whole render through C119. | An invariant of the entries (`HoldsItems`) over histories by induction on the nesting, a deterministic computation of the passes (`kind_passes`), and an induction on the nesting for the equality up to white space (`leaves_bare`, `pass_bare`). | proved |
| C123 | Arguments that are missing or wrong | What is wrong with a list of arguments or words and what is said about it (Spec/Missing.lean: `WrongArgs`, `WrongWords`, `WrongRange`); the BIFs as they are run by the interpreter. | By computing each BIF up to the error, for arguments that evaluate to any texts; `failed` is the whole outcome of a BIF that reports an error. | proved |
| C124 | An error changes nothing but the list of errors | Interp.bifResult/pushError, blocksGo, all BIF bodies, Template.render | a relation on states (another error list, flag and tick) that every BIF body but six cannot see (Deaf, by cases on the bodies), preserved by every operation, by induction over programs, nesting depth and the text (Produces) | proved |
| C125 | Filtered data are displayed as they are | the language of C77 (texts and variables), the start of a render, the display relation of C01 | escaping commutes with trimming; sanitising commutes with following plain keys (for WF request data); induction on the page, C77_render, no marks in entity-only text (C47); one variable: var_exact and C01_escape_shows | proved |
| C126 | What comes after the end of a page does not matter | the evaluation of a text (C68: Produces), render | C68_append and the stop rule for the text; both renders computed up to ends_render; the status by C40 | proved |
| C127 | Where a BIF that prints nothing stands does not matter | the evaluation of a text (C68: Produces), render | C68_append; text without BIFs leaves the state as it is; both renders computed | proved |
| C128 | The text of a page has no influence on its BIFs | the evaluation of a text (C68: Produces), render; BifsOf and Woven are a separate specification (Spec/Weave.lean) | by induction on the text: evaluating it is evaluating its BIFs in turn (InTurn), in both directions | proved |
| C129 | Code that is not evaluated does not matter | the conditions, comparisons, else, coalesce and each with their parameters (computed ones included), the scan of a text, the render | splitting of the derivation of Spec.Produces at a place of the text (induction on it), then the exact laws C33/C34/C36 of the BIFs, which do not mention the code when it is not taken | proved |
| C130 | Code can be exchanged with code that does the same | the scan of a text, the BIFs that evaluate code, the loops, the render | induction on the text before the place (Spec.BifsOf) and inversion of Spec.Produces; the exact laws of the BIFs (C33, C34, C35, C70, each_exact, for_exact) with the codes exchanged; C68_blocks for the render | proved |

Properties that are false of the code are proved false by a concrete witness (suffix `_refuted`) and the strongest true
part is a theorem with suffix `_partial`. What is missing, by property:

* **C05**: The full statement is false: C05_keys_collide exhibits keys that collide after sanitising. Exactly (C05_exact, C05_value): the number of entries is kept iff no two keys denote the same text, and of colliding entries the last is kept.
* **C08**: The full statement is false: C08_scalar_panics. Exactly (C08_exact): each way of updating a schema panics iff the document is a boolean, number, string or array.
* **C10**: Parameters, snippets and declarations set under a name without separators are read back; names with / or -> can be set but not read (C10_refuted). The flag static of snippets: see C71.
* **C100**: PARTIAL C100_atmost and C100_which are complete; exactly one event is proved for submissions and for requests whose element to replace exists. For the others the claim is false of the script: C100_refuted.
* **C101**: PARTIAL Complete for forms without a named file control; with one all successful controls are sent (C101_sent), but false of the script otherwise: C101_refuted, and in general C101_twice.
* **C102**: PARTIAL The first half for forms whose submit buttons carry the attribute, and retry after an error; false of the script otherwise: C102_refuted, C102_double_refuted.
* **C105**: PARTIAL C105_written_partial: every BIF, any modifiers, any sources with the same parts; inside of a cache only BIFs that are not copied into it. Missing: cache, exit, moveto and redirect inside of a cached block, where the claim is false of the code (C105_refuted: {:!^cache; is printed, {:^!cache; is evaluated).
* **C106**: PARTIAL C106_refused, C106_args, C106_sum, C106_table, C106_allow: the full claim for these BIFs. C106_files_partial: data and locale refuse flags none of which is theirs; missing: a foreign flag beside one of theirs, which is ignored (C106_refuted). Not claimed: count and debug, which do not look at their flags.
* **C107**: PARTIAL C107_delimiter_partial: same, contains, replace, cache with any arguments, fetch with literal ones (and cache not as the second pass inside of a cache, which copies its source). C107_delimiter_only: sum, join. C107_compare, C107_sum, C107_replace: each argument is evaluated on its own, in full. Missing: fetch with computed arguments, for which it is false (C107_refuted).
* **C109**: PARTIAL C109_bytes, C109_whole_partial, C109_kept; the rest of the claim is false of the code: C109_refuted, C109_forever. PHP-FPM is assumed to read the file at once; nobody else changes it
* **C118**: PARTIAL The claims of doc/bif-cache.md about nested lifetimes are false (C118_refuted: an inner text 394 s old with lifetimes 100 and 300; C118_effect_refuted). Proved in full: what every page with nested cached parts prints and stores (C118_render), and for all histories the bound by the sum of the lifetimes (C118_age_partial, C118_requests_partial; C118_two_partial for the page of the documentation). For {:!cache;} blocks inside see C119. Not covered: cached parts inside other BIFs than cache.
* **C119**: PARTIAL An excluded part does not always show what it would without cache: parameters and loop variables of the blocks of the cached part are not there (C119_refuted). Proved: what every page with cached and excluded parts, nested in each other in any way, prints and leaves in the cache (C119_render), that stored texts have all excluded parts as written (C119_stored), how old the texts are, for all histories (C119_age, C119_pass, C119_requests), and that code in an excluded part is evaluated as anywhere (C119_carried, for all code). Missing: excluded parts inside other BIFs than cache; C119_render needs that the texts around have no {: or :} (C119_texts: met when no evaluation gives braces) and that the limit of BIFs is not reached.
* **C120**: PARTIAL False for what comes after the first excluded part (C120_refuted: noparse and join). Proved for all pages: what comes before it stays as it is, and all of the rest is evaluated as template code (C120_exact, C120_render: when that evaluation has no errors); without excluded parts all stays (C120_kept).
* **C16**: Proved for all sources whose comments are closed (C16_removes, C16_render). 'Never panics' is false: C16_panics; unclosed comments also lose text (C16_loses_text). Exactly, for every text: C16_exact (the result as a declarative relation, comments counted by occurrences of their delimiters) and C16_panics_exact (it panics iff the text ends with a colon and some comment is never closed).
* **C20**: The full statement is false: C20_refuted ({:!cache; foo never finishes, for every environment and schema) and C20_refuted_request (a request parameter :!cache; printed after a literal brace). Exactly: C20_exact and C20_exact_once: render runs forever iff an intermediate output contains {:!cache; and no closing delimiter at all.
* **C23**: False as stated: {:!exit;…:} withdraws an exit made inside it (C23_refuted), and a built-in in progress when exit happens completes its own effect (C23_completes). Proved: from any moment, at any depth, with the exit mark set and no !exit in progress, the mark stays and no further built-in is executed.
* **C26**: The full statement is false: C26_refuted (join, adjacent variables, cache_disable). Proved for all templates of text and variables that do not touch, any data, any modifiers but +; C77 gives the output of the whole language of nodes as a function of data that is never evaluated.
* **C31**: The full statement is false: C31_refuted, C31_refuted_error. Exactly what a second render does, for every template: C31_second (a fresh template with the comment-free source); C31_kept when comments are kept; C31_repeat_partial when no comment start is left after removing comments.
* **C32**: The full statement is false: C32_refuted holds for every template (render after render_once always panics). Proved for the fast path.
* **C34**: else after a BIF that printed a non-blank text shows nothing, after one that printed nothing shows its code; C34_refuted: a BIF that printed only blanks counts as output.
* **C36**: each is proved in full (a variable that did not exist before is null afterwards); for restores the text of its variable, exact for texts, an object or array is lost (C36_refuted).
* **C37**: C37_bif (the BIF makes its code pending, replacing an equal one), C37_distinct (no two pending codes equal up to spaces and newlines), C37_render_partial (every render inserts each pending code once, at its target, and changes nothing else). Partial because an opening tag is taken to end at the first '>' and recognised by its first characters: C37_refuted.
* **C38**: C38_hit, C38_miss, C38_store_fails and C38_roundtrip are for every request, state, code and lifetime. The separation of requests is false as stated: the identification is an unseparated concatenation (C38_refuted shows a page of one host served to another; C38_shared is the general form; C38_exact says exactly which requests share an entry). C38_separate_partial: requests that differ in exactly one component, or in lifetime, never share an entry, up to collisions of the hash. Overflow of mtime + lifetime (a panic in checked builds) is excluded by a hypothesis.
* **C39**: Model/CacheFs.lean: one entry, any number of renders, one system call at a time, failures and crashes anywhere. False as stated: C39_refuted (empty, cut, NUL-filled and mixed outputs; two writers that both succeed leave a text nobody wrote), C39_stays/C39_poisoned (a broken entry is served until it expires). Proved: C39_origin_partial (without any assumption every byte comes from some render's text at this position or was never written), C39_locked_partial (with mutual exclusion and no failure during writing every output is a complete text).
* **C40**: Three-digit codes: all states. 'Custom codes above 999 keep the content' is false (C40_custom_refuted); C40_longer says exactly when a longer code replaces the content; C40_custom_partial: codes of any other shape not starting with 4 or 5.
* **C41**: The full statement is false: C41_refuted (an undocumented type is accepted when the code contains both js:reload:self and js:reload:top). Proved: all documented redirections are accepted with their exact effect, everything else outside that corner is rejected.
* **C42**: The full statement is false: C42_refuted (a BIF without ; inside {:!cache; of a cached block is printed). Proved: unknown names and modifiers in all cases; the missing ; in the main pass.
* **C43**: False as stated: C43_refuted (a BIF whose name starts with a non-ASCII character) and C43_refuted_comment (an unclosed comment ending with ':') panic. Proved: for every template, world and iteration bound, with a schema of the documented shape (SaneSchema, met by the default schema: C43_default) and an obliging environment, the only panics are the BIF budget and those text slices; C43_where (iff, any environment and schema): the text slices happen exactly when comments are removed from a template that ends with ':' and has an unclosed comment, or when a BIF is evaluated, in any pass and at any depth, whose name begins with a non-ASCII character (modifiers apart), or which looks at such a text in a computed name or in an included file; C43_otherwise: nothing else panics.
* **C45**: False as stated: a text with '/' is looked up as a path (C45_refuted). Proved for texts that are plain names; C45_path says exactly what texts with separators print.
* **C47**: 'No mark is left' is false (C47_refuted: removing a mark can create one); proved for texts whose only & are those of marks. The other parts: all texts.
* **C51**: False as stated: C51_refuted proves that every payload above 65535 bytes is refused, on every connection. C51_partial: all smaller ones are sent.
* **C54**: Proved for documents with the key data, inline and from files; a document without it erases all local data (C54_wiped, C54_refuted).
* **C55**: The full statement is false: C55_refuted. Proved for every source with a {:.
* **C56**: False as stated: C56_refuted (answer 123 received as 12). Exactly: C56_exact (for every cut, an answer that is cut short is accepted as complete whenever the whole records received carry some output). C56_partial, C56_timeout_partial: never anything but the output of whole leading records; reads that fail other than by end of file are always reported.
* **C59**: C59_join_partial: objects, arrays of texts, and keys of both; C59_exact: what is printed for every name without ~, whatever it leads to (elements of arrays that are not texts are printed as empty texts; nothing for a missing name or something without elements). C59_refuted: the code prints numbers and booleans inside arrays as empty texts, so the full claim is false of it.
* **C62**: Proved for every history and schedule when no other file of the path or earlier module has the stem of the script (C62_own_partial); C62_defined: only functions the file defines run, under every schedule; C62_errors: missing file or function; C62_runs: with a fresh name the script's own function runs; C62_cached: a loaded module is used without looking at the file. Missing: scripts with equal stems, for which the claim is false (C62_refuted: two scripts of the same name, the first one runs twice).
* **C63**: C63_sequential: calls one after the other, any interpreter state. C63_concurrent_partial: any schedule of any number of renders with different module names. Missing: concurrent calls of the same script, for which the claim is false (C63_refuted).
* **C64**: C64_call: any well-formed object, inline or in a file, Python or PHP (the executors are arbitrary functions; Python and FastCGI are modelled separately, C50, C51, C56, C62, C63). C64_invalid, C64_missing, C64_no_definition: the errors. C64_data_partial: the result is visible as local data when its JSON text has balanced delimiters and the JSON parser reads back what it printed. Missing: results with unbalanced delimiters, for which the claim is false (C64_refuted: the result is executed as template code).
* **C66**: Proved for names that are, comments apart, a text from {:; to :} without allow (C66_*_partial, Spec.Refused; the specification of comments is that of C16). Every other computed name is accepted (Spec.Accepted, used in C52, C67: the file it evaluates to is the one looked for). Missing: those, for which the claim is false; C66_refuted: {:include; {:&;x:} :} reads the file without allow; C66_obj_refuted: obj evaluates even a bare variable.
* **C70**: everything is proved except that encode_tags leaves BIFs alone: that is false (C70_refuted); C70_encode_tags_partial covers BIFs without HTML characters
* **C71**: param: full. snippet and declare: proved for the file the evaluation is in; inside a computed file name the text of the name counts as that file (C71_refuted). Where they are accepted, C10 says what they define.
* **C72**: include and noparse exact for all file systems; the directory is restored by every BIF except snippet (C72_directory_partial); C72_snippet_exact: what it is after a snippet (C72_refuted: not what the claim says)
* **C73**: hash and neutral exact; date: C73_date_partial for literal formats, C73_date_exact for every source (C73_refuted: the claim is false for computed formats, whose source is used as format); count always an error
* **C74**: exact element for arguments and codes without names of slots in braces (C74_refuted: false otherwise); missing url is an error
* **C84**: C84_missing and C84_path for all histories; the first object of a process runs in its environment; for later objects the claim is false of the code: C84_ignored, C84_refuted
* **C96**: PARTIAL C96_render_partial is for a render a second or more after the run, with a clock that does not move during it, and lifetimes written as plain decimal numbers below 2^63; C96_agrees gives the exact times. In the same second, and for other lifetimes, the claim is false (C96_second_refuted, C96_lifetimes_refuted).
* **C97**: PARTIAL C97_origin, C97_stays, C97_removed and C97_error are complete. The last clause (the script never makes a block end with an error) is false of the code and of the script: C97_refuted. C97_locked_partial gives complete texts for renders that exclude each other when writing, which the code does not do.

## 5. Testing the theorems against wrong programs

`tools/mutate/mutations.py` lists seeded bugs (edits of one definition of the model); `tools/mutate/run.py` applies
each in a scratch copy, elaborates everything the affected properties need and records in `seeded/LOG.jsonl` the property
theorems that no longer hold or depend on a proof that no longer holds. Concrete runs (`decide +kernel`) are switched off there, so
that a bug has to be noticed by a general theorem. Survivors led to the theorems listed as tightened.
`tools/mutate/auto.py` makes mutants systematically (every condition, connective, constant, effect and update of every definition of
the model, sampled) and elaborates every module until one fails; `seeded/AUTO.jsonl` lists which module noticed, and the survivors.

## 6. Findings

Behaviour of the code that contradicts its documentation or the property, with the theorem that proves it:

* Comments: an unclosed comment ending in `:` panics in `remove_comments`, text after an unclosed comment is dropped,
  removal is not idempotent (C16, C43_refuted_comment); `render` removes comments from its own source, so a second
  render can differ (C31_refuted).
* `{:!cache; foo` (never closed) makes `render` loop for ever (C20_refuted); the same text can come from request
  data: `a = {{:;CONTEXT->GET->x:}};` with `x` = `:!cache; <a>` never returns (C20_refuted_request), although
  `filter_value` has escaped the request. C20_exact says exactly when a render runs forever.
* `render` after `render_once` always panics (C32_refuted). The fast path (source without `{:`) keeps the status and errors
  of the previous render (C55_refuted) and accepts a stray `:}`.
* Sanitising keys can make two keys collide and lose an entry (C05). `update_schema` panics on JSON scalars and arrays (C08);
  JSON `null` wipes the schema and the next render panics.
* Names containing `/` or `->` can be set but not read back (C10_refuted); texts such as `Yes/No` are not translated
  (C45_refuted).
* Data is evaluated as template code through adjacent variables, `join`, or `cache_disable` (C26_refuted).
* The check for computed names accepts `{:allow;` anywhere, also in a comment, and rejects only one form (C27_limits).
* `redirect` accepts undocumented types (C41_refuted). A BIF without `;` in `{:!cache;` of a cached block is printed raw
  (C42_refuted).
* `exit`: `{:!exit; {:exit; … :} :}` withdraws the exit (C23_refuted); a BIF in progress completes its effect
  (C23_completes).
* Inclusions made in a nested block are forgotten after it (C52_nested_forgotten).
* A BIF whose name begins with a non-ASCII character panics (C43_refuted); a bad chrono format, a non-string obj
  template, a non-boolean `config.error.show` panic.
* `set_status_code`: codes such as `40404` or `5` wipe the content (C40_custom_refuted).
* Removing marks can create marks (C47_refuted). `else` counts blank output as output (C34_refuted).
* `for` restores its variable as text: an object or array is destroyed, `{:for; CONTEXT …}` destroys the request data
  (C36_refuted).
* The cache key is an unseparated concatenation: a page of one host can be served to another (C38_refuted). Cache files are
  written in place: concurrent renders or a crash leave empty, cut or mixed pages, served until they expire (C39_refuted).
* `moveto` ends an opening tag at the first `>` and matches tag names by prefix (C37_refuted).
* `{:data; {:flg; inline :} >> {} :}` erases all local data (C54_refuted).
* Computed file names are refused only when the name is a bare `{:;x:}`; `{:include; {:&;x:} :}` reads any file without
  `allow` (C66_refuted).
* Python objects: the module is looked up by the stem of the script, so a second script of the same name (or of a standard module)
  never runs (C62_refuted); `sys.path` grows with each call; the schema attributes are shared by concurrent renders
  (C63_refuted).
* PHP objects: a bridge script is written beside the user's script, also with the cache disabled (C61).
* Objects: the JSON of the result is pasted into the template as `{:data;{:flg; inline :}>>…:}`; a result containing `:}` ends
  the BIF and the rest is executed as template code (C64_refuted). A definition file named by the data needs no `allow`
  (C66_obj_refuted). An object whose inline definition contains `>>` only inside a nested BIF is not recognised.
* `encode_tags` encodes also the BIFs of the code, so BIFs with `->`, `>>` or `/` break (C70_refuted).
* Inside a computed file name the text of the name counts as the current file, so `{:include; {:declare; snippet >> * :}{:allow; snippet >> {:;x:} :} :}`
  declares outside of a snippet file (C71_refuted). A static snippet set inside a block stays visible after it (C71_static_leaks).
* Playing a snippet changes the directory of `#` names for all the BIFs that follow in the same block (C72_refuted).
* `date` evaluates a computed format but formats its source (C73_refuted). `count` acts and prints, and then is an error.
* `fetch` substitutes arguments one after the other, so a code with `{endpoint}` (or an argument with `{body}`, ...) is changed (C74_refuted).
* Filter: a loop variable named `CONTEXT` makes the filter trust unfiltered data (C78_premises_needed); a text ending in `{` and white space
  forms a delimiter with filtered data that begin with `:` (C78_premises_needed), and if the data go on with `!cache;` the render does not
  end (C20_refuted).
* `for` gives its variable back as text: a number becomes a string, an object the empty text (C79).
* Virtual environments: only the first Python object of a process can choose one; later objects run with the packages of the
  first environment, although `VIRTUAL_ENV` is changed (C84_ignored, C84_refuted).
* PHP objects: what a script prints becomes part of its result (a function that prints 1 and returns 2 gives 12), and a result
  with the key `__neutralts_obj_error` is an error (C83_premises_needed).  Empty objects reach PHP as empty lists.
* Cache: a cached block in a loop has one entry for all rounds (the loop variables are not in its identification), so every round prints
  the text of the first; `cache_disable` also turns off the sanitising of delimiters, so it is not only a cache switch; the lifetime
  argument is not validated and becomes part of the file name.
* After `exit`, the text between the last evaluated BIF and the next block is dropped but the trailing text is printed.
* An unmatched `:}` sets the status 500 but not the error flag; `set_src_path` on a read error keeps the old source but changes the path.
* `each` inserts null for a missing collection, and `each` over CONTEXT bypasses the filter of CONTEXT variables.
* `join` over arrays prints only the string elements; comments inside comparison arguments change whether the argument is trimmed.
* The text `&` in a template followed by the data `#9224` forms a mark that is removed from the output.
* `exit` and `redirect` in a cached part: at the first request the text printed before is lost (the second pass starts with the exit mark
  set and prints nothing: C23_cached), and at the following requests, when the part comes from the cache, the page goes on after it and the
  exit happens only in the second pass, or never if the page exits somewhere else (C23_cached_refuted).
* `infinite_loop_max_bifs` does not bound the work or the output: `{:for; i -2147483648..2147483647 >> x :}` is one BIF, passes any
  limit, and prints 2^32 characters (`C94_bounded_refuted`); `{:each; …}` has the same freedom over the size of the data.
* `clean-cache` and the engine do not agree on lifetimes: in its last second an entry is used by the engine and removed by the
  script (`-ge` against `>`; `C96_second_refuted`); `0300` is 300 seconds for the engine and octal 192 for the script, a lifetime of
  2^63 or more is negative for the script (removed at once), `+300` or a word is never removed (`C96_lifetimes_refuted`). A file that
  `rm` could not remove is reported as deleted (`C95_report_refuted`).
* `clean-cache` races with renders (C97): an entry removed between the check and the opening makes the block end with an error
  (`Failed to read cache`, the page's status is 500), and prints nothing if the code has no BIF in it; the decision to remove is not
  checked again, so an entry that was just renewed is removed; a directory removed between its creation and the creation of the file
  makes the block end with an error.
* `wildcard_match` takes exponential time in the number of `*` of a word (C98): `n` stars and a text of `n` characters are at least
  `2^n` calls.
* Browser script: a request whose `data-wrap` names no element gets no event (C100_refuted); a form with a file control sends its
  other fields twice, and disabled fields and buttons, too (C101_refuted, C101_twice); a form whose answer goes to another element
  can never be submitted again (C102_refuted); a form whose button has no `type` attribute can be submitted twice at once
  (C102_double_refuted).
* `count`: a name with `->` is read inside the object but stored as a variable whose name contains the arrow, so such a counter never advances (C103_path_stuck); a counter at 2147483647 panics in builds with overflow checks (C103_next).
* Nesting: `infinite_loop_max_bifs` is a bound on the number of BIFs, not on the depth: a file that includes itself is evaluated inside itself as many times as BIFs are left (C104_self; 555000 by default) before the limit panics. Frames and stack size are not modelled; with the usual stacks of threads the stack overflows (an abort that `catch_unwind` does not catch) long before.
* Modifiers in another order (C105_refuted): inside of a cached block `{:^!cache; … :}` and `{:!^cache; … :}` are not the same; the second pass looks for `{:!cache;` on the page and for `!cache` in the name with its modifiers, so `{:!^cache; … :}` is never evaluated and the visitor is shown its source, and `{:^!cache; … :}` is shown unless the page has another `{:!cache;`.
* Flags of data and locale (C106_refuted): a flag they do not know is an error when it is alone, but is ignored beside a flag they know (`{:flg; noparse reqire :}`).
* Arguments of fetch (C107_refuted): they are evaluated before they are divided, so data with the delimiter in them (a `|` in a URL) end the argument and become the next ones (event, wrapper, class, id, name). The other BIFs with arguments divide first.
* `cache`: a lifetime so long that the time of the entry plus the lifetime exceeds 2^64 - 1 is over at once in release builds (C38_longest) and panics where overflow is checked.
* The PHP bridge: `ensure_bridge_script` writes the script in place when there is no file. A call running at the same time can be served by an empty or cut script (C109_refuted), and a call that stops while writing (crash, full disk) leaves a cut script that is never repaired (C109_forever); a script of an older version is never replaced (C109_kept). Writing a temporary file and renaming it would avoid the first two.
* `extract_blocks` reads the rest of the text for each `{:` that is not closed, so a text of 2k bytes with k unclosed `{:` takes at least k·k looks
  (`B.C114_worst`); a template with user text in it that was not escaped can be slow to parse.  `remove_comments` and `get_code_position` are linear.
* A variable whose value is only white space counts as output for `{:else;` when it stands alone, but not inside a block, whose result is trimmed
  (`C113_not_laws`): wrapping it in `{:code; … :}` changes what `else` does.
* The ajax header does not follow "last writer wins": once a schema has it, a later document that spells it `Requested-With-Ajax` or
  `REQUESTED-WITH-AJAX` does not change it, because the spelling in small letters, copied from the first document, is preferred (`C115_ajax`).
* Nested caches (doc/bif-cache.md, Nesting): with an outer lifetime of 100 s and an inner one of 300 s the inner text is not "updated every 300
  seconds": it can be 400 s old, because a new outer entry is made from an inner entry that is almost at its end (`C118_refuted`, and the exact
  bound, the sum of the lifetimes, in `C118_age_partial`).  A nested lifetime not above that of the parent can have an effect, when another page
  made the inner entry (`C118_effect_refuted`).
* An excluded part `{:!cache; … :}` in a block or loop of a cached part does not see the parameters and loop variables of that block or loop
  (`C119_refuted`): `{:cache; /100/ >> {:for; i 1..3 >> {:!cache; [{:;i:}] :} :} :}` gives `[][][]`.  doc/bif-cache.md does not say so.
* The second pass, for the excluded parts, evaluates every BIF that stands after the first excluded part, because `in_only` is set and never
  reset (src/bif/mod.rs:158): code shown with `noparse`, or user data printed by `join`, is evaluated when a `{:!cache; … :}` of a cached part comes
  before it in the page (`C120_refuted`; `C120_exact` is what happens for all pages).  A template injection: the values of `join` are not escaped.
* What a cached part sets (variables of loops, `__eval__`, parameters with `+`) is set only when its entry is made, not when it is found: a page
  that looks at it shows something else at the second request, although nothing in the request is different (C121_needed).
* A cached part is trimmed before its excluded parts are evaluated: `({:cache; /100/ >> A {:!cache; {:;none:} :} :})` gives `(A )`, and `(A)` with
  the cache disabled (C122_spaces).
* FastCGI: payloads above 65535 bytes are refused (C51_refuted); a truncated answer can be accepted (C56_refuted).
