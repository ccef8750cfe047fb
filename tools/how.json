{
 "C58": [
  "eval body",
  "symbolic execution through the two nested evaluations, for every condition, code and modifier"
 ],
 "C59": [
  "join body",
  "symbolic execution, data walk of C09, `Items` by induction over the collection; witness for numbers in arrays"
 ],
 "C60": [
  "Tpl constructors and merge calls",
  "`Built` histories; induction over the list of merged documents using C06/C07"
 ],
 "C61": [
  "`step` writeFile, cache body",
  "guarded relation on the file system kept by every operation, composed over whole renders"
 ],
 "C62": [
  "`Model/Python.lean`: interpreter state (sys.path, sys.modules), exec_py step by step, any schedule",
  "invariant of the module table over all schedules; witness for scripts of the same name"
 ],
 "C63": [
  "`Model/Python.lean`",
  "per-call invariant over all schedules of threads; witness of interference"
 ],
 "C66": [
  "bodies of include, data, locale",
  "symbolic execution for every code and state; witness"
 ],
 "C67": [
  "bodies of include, data, locale, files of the world",
  "symbolic execution for every code and state"
 ],
 "C68": [
  "`Interp.lean` against the big-step relation `Spec.Produces`",
  "equivalence by induction over blocks; nested scopes; fuel monotonicity"
 ],
 "C64": [
  "body of obj, scripts are any function of `Env`",
  "symbolic execution against a specification of the definition, for every state; composition (C68) for the code shown; witness of injection"
 ],
 "C65": [
  "body of debug, files and ages of `World`/`Env`",
  "symbolic execution for every state, against the case distinction `Spec.DebugState`"
 ],
 "C69": [
  "`Interp.lean`: `runBif`, output of a BIF",
  "symbolic execution for every body, mods and state; trimming against a declarative `Spec.Trimmed`"
 ],
 "C70": [
  "bodies of code and flg",
  "symbolic execution for every flag set; `flag_mem` relates words to the collected text; witness for encode_tags"
 ],
 "C71": [
  "bodies of param, snippet, declare",
  "symbolic execution for every definition and state; witness for computed file names"
 ],
 "C72": [
  "bifInclude, resolveFilePath, childParse, bifSnippet (Model/Bifs.lean, Model/State.lean)",
  "symbolic execution of include for every recursion handler and file system; the directory is an invariant of every operation except the one of snippet"
 ],
 "C73": [
  "bifHash, bifDate, bifNeutral, bifCount (Model/Bifs.lean); md5, random source, clock and chrono formatting are parameters of the environment",
  "symbolic execution for every recursion handler and environment"
 ],
 "C74": [
  "bifFetch, fetchDiv (Model/Bifs.lean)",
  "symbolic execution; the six substitutions are followed piecewise (a pattern cannot span a quote, space or line end)"
 ],
 "C75": [
  "bifCache, cacheOff (Model/Bifs.lean)",
  "symbolic execution for every recursion handler"
 ],
 "C76": [
  "`runBlocks`, `runBif`, all BIF bodies",
  "an evaluator that gives up on the excluded BIFs, shown to agree with the model where it succeeds; frame relations by induction on depth over the table of effects of the bodies"
 ],
 "C77": [
  "`runBlocks`, `parseSrc`, `runBif` and the bodies of var, array, bool, defined, filled, same, contains, else, coalesce, code, each, for, param, trans, include, snippet, replace, allow, eval, hash, join, data, locale, lang, mark; `Tpl.render`; the language, how it is written and what it means are in Spec/Lang.lean",
  "mutual induction on the template; every BIF by its own exact theorem (C10, C25, C33-C36, C13, C45, C49, C54, C58, C59, C70, C72), the blocks and their tables of definitions by an invariant, composition by C68, depth by C19"
 ],
 "C78": [
  "the language of C77; Spec/LangUse.lean (texts of a template, what an output is made of)",
  "mutual induction on the template with an invariant on the data and the parameters; then C77 and C01"
 ],
 "C79": [
  "the language of C77",
  "mutual induction on the template with a relation between the values before and after; then C77"
 ],
 "C80": [
  "the language of C77; names and first keys in Spec/LangUse.lean",
  "mutual induction on the template relating two executions; then C77 twice"
 ],
 "C81": [
  "the language of C77; `inlineAll` in Spec/LangUse.lean",
  "mutual induction on the template: both templates mean the same; then C77 twice"
 ],
 "C82": [
  "`Shared.new`, `Tpl.render`; the options are specified in Spec/Options.lean",
  "case analysis on the schema; C21 for the whole render; C77 with the options of the schema"
 ],
 "C83": [
  "`bridge` (Model/Php.lean), `execPhp`; PHP arrays in Spec/Php.lean",
  "composition of C50 (request, response) with the bridge script, for all scripts"
 ],
 "C84": [
  "`setupVenv`, `execIn`, `history` (Model/Venv.lean)",
  "execution of one call; induction over histories; witness"
 ],
 "C85": [
  "the language of C77 with cached parts (Spec/Page.lean: `cachedOf`, `pageMeans`, `History`), the whole render (Model/Template, Bifs.bifCache)",
  "simulation of the page part by part (C85_render, on top of C77 and C38), then induction over histories of visits"
 ],
 "C86": [
  "both sides: the byte loops of the code (Model/Bytes.lean) and the character functions used everywhere else (Model/Utils, Interp, Template, FastCgi)",
  "refinement: every byte loop equals the image of the character function (UTF-8 is prefix free and self-synchronising, Lemmas/Utf8.lean); the loop counters are proved sufficient"
 ],
 "C87": [
  "`bifResult`, `bifParse`, `errorLine`, `oneLine`, all bodies (Model/Interp, Model/Bifs)",
  "Props/ErrorText: every body raises only errors carrying its own name, file and text (structural traversal of all bodies); Props/Errors: induction over programs, blocks, nesting and passes gives an iff between the entries of the list and the BIFs evaluated (`Evaluates`, `PassOf`) that complain"
 ],
 "C88": [
  "`runBif` (count), `pushError`",
  "Props/Errors: the relation `errors + count` as an invariant of every step (`Closed`), where recording an error is paid by the counting of the BIF"
 ],
 "C89": [
  "`bifError` in all bodies (Model/Bifs), table `Spec.messages`/`Spec.messageForms`",
  "Props/Messages: structural traversal of all bodies, each `bifError` checked against the table of its BIF; combined with C87 and the history of calls (`Reach`)"
 ],
 "C90": [
  "`Env` (everything the bodies take from outside), all bodies (Model/Bifs), render (Model/Template)",
  "Props/Depends: for each body, equality of the two programs unless the BIF is in the table `Spec.usersOf`; two-run induction over the evaluation (`Evaluates`, `PassOf`)"
 ],
 "C91": [
  "`World.fs`, all bodies (Model/Bifs), `step`/`run` (Model/Prog), render (Model/Template)",
  "Props/Reads: each body's continuation after reading the state is shown equal under a change of files where it does not look (`Sees`, `body_sees`); two-run simulation up to the files in X through `step`, blocks, passes and the render"
 ],
 "C92": [
  "Model/Prog (operations), Model/Interp, Model/Template; evaluation of BIFs as in C87 (Evaluates, PassOf)",
  "Props/Cause: a predicate on the state that is unaffected by the bookkeeping and that is false at the beginning and true at the end of a render turned true at one operation of one evaluated BIF (induction on programs, blocks, levels and passes); the table of effects of every BIF tells its name"
 ],
 "C93": [
  "whole render: pages of Spec/Page followed by an `Ending` (Spec/Answer)",
  "soundness of the parts (C85) up to the end, C23_effect / C41_accepted for the end, the stop rule of C68 for the rest, C40 for the answer; C75_ends: whether a BIF is inside a cached part is a matter of nesting only"
 ],
 "C94": [
  "Interp/Bifs (`for`), Template.render; meaning of Spec/Lang",
  "induction over the rounds of the meaning of a loop, then C77_render; the witness is an instance of the theorem with the full 32-bit range"
 ],
 "C95": [
  "Clean (the whole script); Spec/Clean",
  "induction over the two loops; names and numbers against a separate specification (hexadecimal and decimal digits, value of a numeral, 64-bit wrap around)"
 ],
 "C96": [
  "Clean and the cache of Bifs; meaning of pages (Spec/Page)",
  "the name of an entry determines its lifetime; the parts of a page find the same fresh entries with and without what was removed; then C85_render twice; witnesses for the last second, octal, huge and odd lifetimes"
 ],
 "C97": [
  "Model/CacheRm.lean: one entry as a name and the files behind it, its directory, renders, runs of the script, a clock; every system call is a step",
  "induction on histories over the sorted steps (`step_does`): origin of bytes, what a render has seen is still there, the decision before a removal, a young entry stays, completeness under a lock; concrete histories for the refutation"
 ],
 "C98": [
  "Model/Cost.lean: the recursion of `wildcard_match` with its calls counted; the same answers as Model/Utils.lean",
  "structural induction on the word; n stars for the lower bound"
 ],
 "C99": [
  "Model/Client.lean: elements with classes, listeners, requests and answers of `NEUTRAL_JS`; every event is a step",
  "invariant over histories: each class an element came with is still there or has had its effect once (`Books`); after loading no element of the document has a class left (`Ready`)"
 ],
 "C100": [
  "Model/Client.lean: requests, answers, failures, events",
  "the same invariant: the number of events of a request; a concrete history for the refutation"
 ],
 "C101": [
  "Model/Client.lean: `body`, from the controls of a form",
  "list reasoning; a concrete form for the refutation"
 ],
 "C102": [
  "Model/Client.lean: delays, disabled buttons, errors on buttons",
  "invariant: submissions under way and errors shown are at most the disabled flag; a form that is stuck stays so (`C102_stuck`), and a history that reaches it"
 ],
 "C103": [
  "bifCount, i32Add, setData, getData",
  "symbolic execution of the BIF: the four outcomes exactly (C103_set, C103_next, C103_not_number), and that a stored number is what the next use reads (C103_again)"
 ],
 "C104": [
  "the bound n of runBlocks counts evaluations inside each other",
  "C104_limit: least bound by C19_terminates; C104_written: the induction of C77 with the depth of the template; C104_self: induction over the bound, symbolic execution of include"
 ],
 "C105": [
  "two evaluations of the same body whose states differ in the text and the source of the BIF only",
  "relational: ResSim is shown for every operation and every body (sources related by equality, or by having the same parts), then lifted through Bif::parse; counterexample inside of a cache evaluated in the kernel"
 ],
 "C106": [
  "the first steps of every body: modifiers, parameters, flags",
  "one lemma per shape of a body (denyFlags, denyFlgParams, checkFlags), instantiated by unification with each body; data, locale, allow, sum by symbolic execution"
 ],
 "C107": [
  "extract_args and the bodies with arguments",
  "relational: two states that differ only in the text, the source and the spelling of the arguments go through every such body alike; C107_compare, C107_sum, C107_replace: symbolic execution after the arguments"
 ],
 "C108": [
  "`execPhp`, `readRound`, `endpointOk` (Model/FastCgi), `bridge` (Model/Php); the stages are specified in Spec/PhpCall.lean (`Reports`)",
  "C108_reports and C108_only: case analysis over the stages, both directions; C108_version, C108_http, C108_stderr: with the stream lemmas of C50; C108_large: C51"
 ],
 "C109": [
  "Model/Bridge: transition system of `ensure_bridge_script`, one system call at a time",
  "invariant over all histories: every byte is of the script or a hole, and the last to create the file has written it up to its position"
 ],
 "C110": [
  "Lemmas/Blind (every body), Spec/Upline, Props/Upline",
  "a simulation between the run of a body and the run with another modifier ^ and another text, closed under bind and every operation; proved body by body; then carried to the end of the BIF and to templates"
 ],
 "C111": [
  "Spec/Rename (renaming of names, nodes, sites), the language of Spec/Lang and its meaning",
  "relational induction over the two programs (`agree2_all`): memories related by the renaming stay related and print the same; then C77_render for both"
 ],
 "C112": [
  "Spec.readersOf (which BIFs read an option), the whole interpreter under two configurations",
  "a simulation body by body (Lemmas/Tune: `Deaf`, `deaf_body`), then over the nesting of evaluations and the passes of a render (`tune_renderWith`); the two states differ only in the options (`Tuning.on`)"
 ],
 "C113": [
  "Spec/Laws (`Swap`: the laws, closed under every context of the language)",
  "each law is proved of the meanings (Spec/Lang), which are shown to be blind to the number of BIFs (`blind_all`) and to be congruences (`ins_*`, `swap_sound`); then C77_render for both templates"
 ],
 "C114": [
  "The scanning loops of src/utils.rs over bytes (Model/Bytes.lean) with a count of the positions `str::find` looks at and of the bytes read (Model/ScanCost.lean); copying, allocation and the substring search's inner comparisons are not counted.",
  "The counted functions are proved to give the results of the functions of Model/Bytes.lean (`C114_same_*`), which C86 relates to the text model; the bounds are proved by induction over the loops, relating the work of a search to the position it ends at (`Works`, `WorksIn`); the lower bound `C114_worst` is proved for every number of unclosed openings."
 ],
 "C115": [
  "merge_schema and update_schema as in C06/C07; templates made by any sequence of calls (`Built`, C60). What a document says is stated by paths (`says`), independently of the merge.",
  "Grouping is proved by induction on the size of the second document with extensionality of ordered objects (same keys in the same order, same values); order by showing that what a merge says at a path is what the second document says if it decides the path and what the first says otherwise. Exactness (`C115_order_exact`), the excluded case (`C115_groups_refuted`) and the ajax header (`C115_ajax`, `C115_ajax_refuted`) are theorems too."
 ],
 "C116": [
  "The language of C77 (Spec/Lang.lean) as rendered by the modelled `Template::render`; the tokenizer of the HTML standard for tags, attributes, comments, doctypes and text elements (Spec/Markup.lean: `Place.step`, `markup`, `tags`), a check of templates (`endsAll`) and the markups a template can have (`ShapeAll`).  Not in the HTML reader: scripts after `<!--`, foreign elements, noscript and plaintext (they lead to a place that is never accepted); what a browser does with the value of an attribute (a `javascript:` link) is not markup.",
  "Induction over templates: every output is read from a place for data to the place the check gives, with a markup of the template (`leads_node`); trimming and the marks of the second phase (`&#9224`, `&#0;`) do not change the reading because `&` and white space stand at places for data; with C77, C78 and C47 for the render."
 ],
 "C117": [
  "The language of C77 as rendered by the modelled `Template::render`, with two sites and two sets of definitions; what a template reads is Spec/Setting.lean (`thingsAll`, `SameThing`).",
  "A relation between two evaluations (`Even`: same data, count and last outputs, same sections of the definitions if they are read), kept by every construct (`paired_node`), and C77 for both renders."
 ],
 "C118": [
  "The language of C77 with cached parts in cached parts (Spec/Nest.lean: `piecesMean`, `Asked`, `AgedText`), the whole render (Model/Template, Bifs.bifCache).",
  "Simulation of the page part by part, with the files and the clock changing inside the evaluation of a part (`SoundIn`, `sound_piece`), then an invariant of the entries (`Stocked`) over histories of requests."
 ],
 "C119": [
  "The language of C77 with cached parts and excluded parts (Spec/Holes.lean: `itemsMean`, `holesShow`, `FilledBy`), the whole render with its second pass over `{:!cache;` (Model/Template, Bifs.bifCache, Interp.bifParse with only and inOnly).",
  "Simulation part by part of the first pass (`sound_item`), a transfer theorem for code evaluated inside an excluded part in the second pass (`carried`: a relational invariant of the interpreter over all BIFs), a run of the second pass over the incomplete page (`holes_run`), and an invariant of the entries over histories (`StockedItems`)."
 ],
 "C120": [
  "`render` with its second pass (Model/Template: cacheLoop, pass; Interp.bifParse with only and inOnly).",
  "Run of the second pass up to the first excluded part (`before_run`), and transfer of the ordinary evaluation to it from there (`carried_selected`, `produces_carried`); witnesses."
 ],
 "C121": [
  "The language of C77 with cached parts in cached parts (Spec/Nest.lean: `piecesMean`), kinds of requests and histories of them (Spec/Invisible.lean: `Kind`, `Faithful`, `Served`), the whole render through C118.",
  "An invariant of the entries (`Holds`: what an entry holds is what its part shows) over histories, by induction on the nesting; for the templates a relational induction over the language (`det_node`: two memories that agree where they are looked at) and two inductions for what is kept (`kd_node`, `kf_node`)."
 ],
 "C122": [
  "As C119 and C121: pages with cached and excluded parts (Spec/Holes.lean), kinds of requests, and what a page of a kind leaves and shows without a cache (Spec/Unseen.lean: `leavesAll`, `pass`, `bareAll`, `ServedItems`), the whole render through C119.",
  "An invariant of the entries (`HoldsItems`) over histories by induction on the nesting, a deterministic computation of the passes (`kind_passes`), and an induction on the nesting for the equality up to white space (`leaves_bare`, `pass_bare`)."
 ],
 "C123": [
  "What is wrong with a list of arguments or words and what is said about it (Spec/Missing.lean: `WrongArgs`, `WrongWords`, `WrongRange`); the BIFs as they are run by the interpreter.",
  "By computing each BIF up to the error, for arguments that evaluate to any texts; `failed` is the whole outcome of a BIF that reports an error."
 ],
 "C124": [
  "Interp.bifResult/pushError, blocksGo, all BIF bodies, Template.render",
  "a relation on states (another error list, flag and tick) that every BIF body but six cannot see (Deaf, by cases on the bodies), preserved by every operation, by induction over programs, nesting depth and the text (Produces)"
 ],
 "C125": [
  "the language of C77 (texts and variables), the start of a render, the display relation of C01",
  "escaping commutes with trimming; sanitising commutes with following plain keys (for WF request data); induction on the page, C77_render, no marks in entity-only text (C47); one variable: var_exact and C01_escape_shows"
 ],
 "C126": [
  "the evaluation of a text (C68: Produces), render",
  "C68_append and the stop rule for the text; both renders computed up to ends_render; the status by C40"
 ],
 "C127": [
  "the evaluation of a text (C68: Produces), render",
  "C68_append; text without BIFs leaves the state as it is; both renders computed"
 ],
 "C128": [
  "the evaluation of a text (C68: Produces), render; BifsOf and Woven are a separate specification (Spec/Weave.lean)",
  "by induction on the text: evaluating it is evaluating its BIFs in turn (InTurn), in both directions"
 ],
 "C129": [
  "the conditions, comparisons, else, coalesce and each with their parameters (computed ones included), the scan of a text, the render",
  "splitting of the derivation of Spec.Produces at a place of the text (induction on it), then the exact laws C33/C34/C36 of the BIFs, which do not mention the code when it is not taken"
 ],
 "C130": [
  "the scan of a text, the BIFs that evaluate code, the loops, the render",
  "induction on the text before the place (Spec.BifsOf) and inversion of Spec.Produces; the exact laws of the BIFs (C33, C34, C35, C70, each_exact, for_exact) with the codes exchanged; C68_blocks for the render"
 ]
}