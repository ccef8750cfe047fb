{
"C01": "all strings",
"C02": "all strings",
"C03": "all strings and values",
"C04": "all schemas and templates",
"C05": "The full statement is false: C05_keys_collide exhibits keys that collide after sanitising. Exactly (C05_exact, C05_value): the number of entries is kept iff no two keys denote the same text, and of colliding entries the last is kept.",
"C06": "all values",
"C07": "all values",
"C08": "The full statement is false: C08_scalar_panics. Exactly (C08_exact): each way of updating a schema panics iff the document is a boolean, number, string or array.",
"C09": "all schemas and names",
"C11": "All schemas and names; the negated forms as seen by a template: C33.",
"C12": "all texts and patterns",
"C13": "C13_exact / C13_replace / C13_undeclared: exact output of allow and !allow for all declarations, words, flags, evaluated texts and states",
"C14": "all sources",
"C15": "all well-formed templates, any depth",
"C16": "Proved for all sources whose comments are closed (C16_removes, C16_render). 'Never panics' is false: C16_panics; unclosed comments also lose text (C16_loses_text). Exactly, for every text: C16_exact (the result as a declarative relation, comments counted by occurrences of their delimiters) and C16_panics_exact (it panics iff the text ends with a colon and some comment is never closed).",
"C17": "all comments, all templates around them",
"C18": "all sources",
"C19": "all templates, any nesting; fuel is shown sufficient; C19_where: the budget panic happens exactly when one BIF more than the schema allows is evaluated, in any pass, at any depth",
"C21": "all templates",
"C22": "all API histories",
"C53": "all API histories",
"C40": "Three-digit codes: all states. 'Custom codes above 999 keep the content' is false (C40_custom_refuted); C40_longer says exactly when a longer code replaces the content; C40_custom_partial: codes of any other shape not starting with 4 or 5.",
"C47": "'No mark is left' is false (C47_refuted: removing a mark can create one); proved for texts whose only & are those of marks. The other parts: all texts.",
"C49": "all texts and non-empty patterns",
"C20": "The full statement is false: C20_refuted ({:!cache; foo never finishes, for every environment and schema) and C20_refuted_request (a request parameter :!cache; printed after a literal brace). Exactly: C20_exact and C20_exact_once: render runs forever iff an intermediate output contains {:!cache; and no closing delimiter at all.",
"C28": "all templates and worlds",
"C29": "all sources that fail to decompose (C29_error) and, independently of the scanner, all well-formed prefixes followed by a stray :}",
"C30": "all templates, schemas, worlds",
"C31": "The full statement is false: C31_refuted, C31_refuted_error. Exactly what a second render does, for every template: C31_second (a fresh template with the comment-free source); C31_kept when comments are kept; C31_repeat_partial when no comment start is left after removing comments.",
"C32": "The full statement is false: C32_refuted holds for every template (render after render_once always panics). Proved for the fast path.",
"C55": "The full statement is false: C55_refuted. Proved for every source with a {:.",
"C33": "all names, all sources, all states in which the condition is plain (no nested block); nested conditions through the relation nested",
"C34": "else after a BIF that printed a non-blank text shows nothing, after one that printed nothing shows its code; C34_refuted: a BIF that printed only blanks counts as output.",
"C35": "all alternatives and states",
"C25": "all values, names (also computed) and modifiers; the filter part assumes that printed floats have no special characters",
"C26": "The full statement is false: C26_refuted (join, adjacent variables, cache_disable). Proved for all templates of text and variables that do not touch, any data, any modifiers but +; C77 gives the output of the whole language of nodes as a function of data that is never evaluated.",
"C27": "C27_exact: every computed name is refused (a text from {:; to :} comments apart, without allow), accepted, or panics (unclosed comment); C27_refused, C27_insecure: all refused names; C27_limits shows how narrow the rejected form is",
"C41": "The full statement is false: C41_refuted (an undocumented type is accepted when the code contains both js:reload:self and js:reload:top). Proved: all documented redirections are accepted with their exact effect, everything else outside that corner is rejected.",
"C42": "The full statement is false: C42_refuted (a BIF without ; inside {:!cache; of a cached block is printed). Proved: unknown names and modifiers in all cases; the missing ; in the main pass.",
"C44": "all flags, files and texts; for code (C44_code, C44_code_written) and include (C44_include)",
"C45": "False as stated: a text with '/' is looked up as a path (C45_refuted). Proved for texts that are plain names; C45_path says exactly what texts with separators print.",
"C48": "rand, sum and lang, accepted and rejected arguments",
"C52": "skipped, remembered, kept for the rest of the scope and inherited by every nested block; inclusions made in a nested block are forgotten after it (C52_nested_forgotten), which is what 'per scope' says",
"C46": "all scripts, templates, schemas: an evaluation that depends on the script marks it as emitted (C46_marked, C46_marked_bif), nothing evaluated afterwards depends on it (C46_once), nor a render with disable_js (C46_disabled)",
"C23": "False as stated: {:!exit;…:} withdraws an exit made inside it (C23_refuted), and a built-in in progress when exit happens completes its own effect (C23_completes). Proved: from any moment, at any depth, with the exit mark set and no !exit in progress, the mark stays and no further built-in is executed.",
"C24": "Proved for every BIF text, environment and state at any nesting level, for all sections other than the snippets (which the property does not list; a static snippet does leak). C24_block: a nested block of any content leaves the definitions of all enclosing blocks; C24_met/C24_start: the level hypothesis holds at every BIF evaluated in a render.",
"C43": "False as stated: C43_refuted (a BIF whose name starts with a non-ASCII character) and C43_refuted_comment (an unclosed comment ending with ':') panic. Proved: for every template, world and iteration bound, with a schema of the documented shape (SaneSchema, met by the default schema: C43_default) and an obliging environment, the only panics are the BIF budget and those text slices; C43_where (iff, any environment and schema): the text slices happen exactly when comments are removed from a template that ends with ':' and has an unclosed comment, or when a BIF is evaluated, in any pass and at any depth, whose name begins with a non-ASCII character (modifiers apart), or which looks at such a text in a computed name or in an included file; C43_otherwise: nothing else panics.",
"C50": "Requests, responses and whole calls of the FastCGI client, against an independent relational specification of the FastCGI wire format (Spec/FastCgi.lean) shown to be uniquely decodable.",
"C51": "False as stated: C51_refuted proves that every payload above 65535 bytes is refused, on every connection. C51_partial: all smaller ones are sent.",
"C56": "False as stated: C56_refuted (answer 123 received as 12). Exactly: C56_exact (for every cut, an answer that is cut short is accepted as complete whenever the whole records received carry some output). C56_partial, C56_timeout_partial: never anything but the output of whole leading records; reads that fail other than by end of file are always reported.",
"C38": "C38_hit, C38_miss, C38_store_fails and C38_roundtrip are for every request, state, code and lifetime. The separation of requests is false as stated: the identification is an unseparated concatenation (C38_refuted shows a page of one host served to another; C38_shared is the general form; C38_exact says exactly which requests share an entry). C38_separate_partial: requests that differ in exactly one component, or in lifetime, never share an entry, up to collisions of the hash. Overflow of mtime + lifetime (a panic in checked builds) is excluded by a hypothesis.",
"C39": "Model/CacheFs.lean: one entry, any number of renders, one system call at a time, failures and crashes anywhere. False as stated: C39_refuted (empty, cut, NUL-filled and mixed outputs; two writers that both succeed leave a text nobody wrote), C39_stays/C39_poisoned (a broken entry is served until it expires). Proved: C39_origin_partial (without any assumption every byte comes from some render's text at this position or was never written), C39_locked_partial (with mutual exclusion and no failure during writing every output is a complete text).",
"C37": "C37_bif (the BIF makes its code pending, replacing an equal one), C37_distinct (no two pending codes equal up to spaces and newlines), C37_render_partial (every render inserts each pending code once, at its target, and changes nothing else). Partial because an opening tag is taken to end at the first '>' and recognised by its first characters: C37_refuted.",
"C54": "Proved for documents with the key data, inline and from files; a document without it erases all local data (C54_wiped, C54_refuted).",
"C57": "Inline and from files, including files that contain BIFs.",
"C36": "each is proved in full (a variable that did not exist before is null afterwards); for restores the text of its variable, exact for texts, an object or array is lost (C36_refuted).",
"C10": "Parameters, snippets and declarations set under a name without separators are read back; names with / or -> can be set but not read (C10_refuted). The flag static of snippets: see C71.",
"C58": "C58_shown/C58_plain/C58_hidden/C58_flags cover every outcome of the condition, for every nested evaluation.",
"C59": "C59_join_partial: objects, arrays of texts, and keys of both; C59_exact: what is printed for every name without ~, whatever it leads to (elements of arrays that are not texts are printed as empty texts; nothing for a missing name or something without elements). C59_refuted: the code prints numbers and booleans inside arrays as empty texts, so the full claim is false of it.",
"C60": "Statements over the inductive histories Built; documents are well-formed JSON values (no duplicate keys); header entries and the version stamp are excluded by Ordinary (C07 states what happens to them).",
"C61": "For every program: C61_blocks for any evaluation and any state, C61_render and C61_render_once for whole renders. The bridge script (Spec.BridgeFile) is written beside a PHP script also when the cache is disabled. Files touched by external scripts (PHP, Python) are outside the model.",
"C62": "Proved for every history and schedule when no other file of the path or earlier module has the stem of the script (C62_own_partial); C62_defined: only functions the file defines run, under every schedule; C62_errors: missing file or function; C62_runs: with a fresh name the script's own function runs; C62_cached: a loaded module is used without looking at the file. Missing: scripts with equal stems, for which the claim is false (C62_refuted: two scripts of the same name, the first one runs twice).",
"C63": "C63_sequential: calls one after the other, any interpreter state. C63_concurrent_partial: any schedule of any number of renders with different module names. Missing: concurrent calls of the same script, for which the claim is false (C63_refuted).",
"C66": "Proved for names that are, comments apart, a text from {:; to :} without allow (C66_*_partial, Spec.Refused; the specification of comments is that of C16). Every other computed name is accepted (Spec.Accepted, used in C52, C67: the file it evaluates to is the one looked for). Missing: those, for which the claim is false; C66_refuted: {:include; {:&;x:} :} reads the file without allow; C66_obj_refuted: obj evaluates even a bare variable.",
"C67": "Every file name (literal or computed and accepted, Spec.Accepted), any flags accepted by the BIF; FileName is the specification of how the path is found.",
"C68": "Spec.Produces is a big-step relation over the blocks of a template, written without the interpreter's loop; C68_blocks is an equivalence. C68_nested, C68_scope: nested evaluation and what it forgets. C68_append: concatenation. C68_render: the whole render without !cache pass or redirection.",
"C64": "C64_call: any well-formed object, inline or in a file, Python or PHP (the executors are arbitrary functions; Python and FastCGI are modelled separately, C50, C51, C56, C62, C63). C64_invalid, C64_missing, C64_no_definition: the errors. C64_data_partial: the result is visible as local data when its JSON text has balanced delimiters and the JSON parser reads back what it printed. Missing: results with unbalanced delimiters, for which the claim is false (C64_refuted: the result is executed as template code).",
"C65": "proved for every state: disabled, test, enabled with a key, enabled without a key (version). C65_disabled covers all ways of being disabled; the cases are exhaustive (debugState_total).",
"C69": "C69_output, C69_upline: for every BIF; C69_trimmed: trimming characterised declaratively",
"C70": "everything is proved except that encode_tags leaves BIFs alone: that is false (C70_refuted); C70_encode_tags_partial covers BIFs without HTML characters",
"C71": "param: full. snippet and declare: proved for the file the evaluation is in; inside a computed file name the text of the name counts as that file (C71_refuted). Where they are accepted, C10 says what they define.",
"C72": "include and noparse exact for all file systems; the directory is restored by every BIF except snippet (C72_directory_partial); C72_snippet_exact: what it is after a snippet (C72_refuted: not what the claim says)",
"C73": "hash and neutral exact; date: C73_date_partial for literal formats, C73_date_exact for every source (C73_refuted: the claim is false for computed formats, whose source is used as format); count always an error",
"C74": "exact element for arguments and codes without names of slots in braces (C74_refuted: false otherwise); missing url is an error",
"C75": "off, excluded inside and outside: exact for all settings and states; C75_ends: nesting only, also after failures",
"C76": "Spec.without evaluates as the model does but gives up when an evaluated text contains one of the excluded BIFs; C76_same: where it succeeds it is the model's evaluation.",
"C77": "denotational semantics of a template language; C77_means for blocks in any state, C77_render for whole renders. Texts and names are required not to contain or form delimiters (TextOk, NameOk); files named literally (template files must be texts of the language, data and locale files must be parsable JSON); snippets defined in the schema (C10 for those set by a file).",
"C78": "premises: no replace in the template (it can cut entities), no join (it prints unfiltered), no translations read from files, hashes clean (they are hexadecimal); no loop variable is named CONTEXT; the test of an eval+ is filtered too; no text or translation ends in { (up to white space) or has {: in it, printed floating point numbers have no special characters, initial parameters clean; C78_premises_needed shows that the premises on CONTEXT and on { are needed",
"C79": "the second clause of C79_render says exactly what happens to the variable of a for",
"C80": "names must not begin with a separator (then they name the whole data)",
"C81": "both templates must be templates of the language (texts and arguments of comparisons without / etc.)",
"C82": "C82_start, C82_settings for all templates; C82_render for the language of C77",
"C83": "C83_value and C83_errors for every script and call; the premises (silent script, no error object) are shown to be needed",
"C84": "C84_missing and C84_path for all histories; the first object of a process runs in its environment; for later objects the claim is false of the code: C84_ignored, C84_refuted",
"C85": "C85_render: the whole render is the meaning of the page, including the files; C85_history/C85_requests: induction over all histories; C85_again, C85_transparent; the cached parts are at the top level of the page (nested ones: C38)",
"C86": "Model/Bytes.lean is a second, literal model of the byte scanners; C86_* are equalities with the character model for all inputs, including which slices panic.",
"C87": "C87_errors: an iff for the whole render; C87_failed and C87_delimiter give the text for one BIF; C87_every_error holds after any history of calls.",
"C88": "C88_evaluation for any evaluation, C88_render for renders, with the limit of the schema.",
"C89": "C89_messages: for every template a program can hold, every entry of get_error is a delimiter line or a report with a message of the BIF it names (Spec.messages, Spec.messageForms); C89_body: for each body from any state. An example renders one failing template per message.",
"C90": "C90_depends, C90_depends_once: equality of the whole results (output, shared state with errors and files) for any set of facilities, unless a BIF that needs one of them is evaluated in one of the passes; the hypothesis is about the first environment only.",
"C91": "C91_files, C91_files_once: the two whole results are equal up to the files in X, unless a BIF evaluated in the first run may look at a file in X (LooksAt: for obj, any file); C91_observed: same output, status, errors. canonicalize is a function of the path in the model (symbolic links are not files).",
"C92": "Leaves: before the BIF the reported value differs, after it it is the final one. What exit and redirect set is C23/C41, moveto is C37.",
"C93": "full render theorem for exit (with or without parameter), HTTP and JavaScript redirects with literal parameter and any body of the language",
"C94": "C94_copies is for every range, text, schema and limit; C94_bounded_refuted is the consequence: a bound on BIFs is no bound on output.",
"C95": "Exact in both directions (C95_only, C95_removes) up to the time the script takes; C95_report_refuted: a failed rm is reported as a deletion.",
"C96": "PARTIAL C96_render_partial is for a render a second or more after the run, with a clock that does not move during it, and lifetimes written as plain decimal numbers below 2^63; C96_agrees gives the exact times. In the same second, and for other lifetimes, the claim is false (C96_second_refuted, C96_lifetimes_refuted).",
"C97": "PARTIAL C97_origin, C97_stays, C97_removed and C97_error are complete. The last clause (the script never makes a block end with an error) is false of the code and of the script: C97_refuted. C97_locked_partial gives complete texts for renders that exclude each other when writing, which the code does not do.",
"C98": "All words and texts. The bound has the number of stars as exponent, and that is necessary: C98_exponential_refuted (2^n calls for n stars).",
"C99": "All pages, contents of answers and histories. The document is a list of elements; what an answer does to it is any change.",
"C100": "PARTIAL C100_atmost and C100_which are complete; exactly one event is proved for submissions and for requests whose element to replace exists. For the others the claim is false of the script: C100_refuted.",
"C101": "PARTIAL Complete for forms without a named file control; with one all successful controls are sent (C101_sent), but false of the script otherwise: C101_refuted, and in general C101_twice.",
"C102": "PARTIAL The first half for forms whose submit buttons carry the attribute, and retry after an error; false of the script otherwise: C102_refuted, C102_double_refuted.",
"C103": "Names of the form local::… are read from the local data (C103_next excludes them); names with an arrow never advance (C103_path_stuck).",
"C104": "Depth is counted in evaluations inside each other (activations of parse_with_blocks); the bytes of stack per activation are not modelled.",
"C105": "PARTIAL C105_written_partial: every BIF, any modifiers, any sources with the same parts; inside of a cache only BIFs that are not copied into it. Missing: cache, exit, moveto and redirect inside of a cached block, where the claim is false of the code (C105_refuted: {:!^cache; is printed, {:^!cache; is evaluated).",
"C106": "PARTIAL C106_refused, C106_args, C106_sum, C106_table, C106_allow: the full claim for these BIFs. C106_files_partial: data and locale refuse flags none of which is theirs; missing: a foreign flag beside one of theirs, which is ignored (C106_refuted). Not claimed: count and debug, which do not look at their flags.",
"C107": "PARTIAL C107_delimiter_partial: same, contains, replace, cache with any arguments, fetch with literal ones (and cache not as the second pass inside of a cache, which copies its source). C107_delimiter_only: sum, join. C107_compare, C107_sum, C107_replace: each argument is evaluated on its own, in full. Missing: fetch with computed arguments, for which it is false (C107_refuted).",
"C108": "C108_reports: every call reports one of the stages; C108_only: only that; sockets, files and the interpreter are parameters",
"C109": "PARTIAL C109_bytes, C109_whole_partial, C109_kept; the rest of the claim is false of the code: C109_refuted, C109_forever. PHP-FPM is assumed to read the file at once; nobody else changes it",
"C110": "C110_upline: every BIF, every state and evaluation of nested blocks; C110_template: in a template, where the rest is the same; C110_exceptions: the three exceptions",
"C111": "For the templates of the language of C77. The renaming must be injective, keep names without separators such, and keep CONTEXT, __eval__ and the local:: names, which have a fixed meaning in the code.",
"C112": "C112_options: any two configurations whose differing options are not read by an evaluated BIF; C112_limit: raising the limit of BIFs. Lowering the limit is covered by C19 (the render ends in an abort or is the same by symmetry). obj and debug are excluded since they are given the whole schema.",
"C113": "C113_render: any two templates related by Swap; the limit has to be enough for both. C113_not_laws: what users may believe and is not so (a variable in a block is not the variable for a following else; else is not the opposite test).",
"C114": "Bounds for all byte strings and a matching lower bound for a family of texts; the work is counted in looks at a position (find) and bytes read. The inner comparison of a pattern of at most three bytes at a position counts as one look.",
"C115": "The property as stated includes its exceptions, which are theorems.",
"C116": "For all templates of the language accepted by the check. The HTML reader follows the tokenizer of the HTML standard; constructs it does not follow lead to a place that is never accepted. C116_places_needed and C116_filter_needed: the places and the filter are needed.",
"C117": "Complements C80 (the data) and C112 (options, for all templates). C117_reads_matter: what is read does matter.",
"C118": "PARTIAL The claims of doc/bif-cache.md about nested lifetimes are false (C118_refuted: an inner text 394 s old with lifetimes 100 and 300; C118_effect_refuted). Proved in full: what every page with nested cached parts prints and stores (C118_render), and for all histories the bound by the sum of the lifetimes (C118_age_partial, C118_requests_partial; C118_two_partial for the page of the documentation). For {:!cache;} blocks inside see C119. Not covered: cached parts inside other BIFs than cache.",
"C119": "PARTIAL An excluded part does not always show what it would without cache: parameters and loop variables of the blocks of the cached part are not there (C119_refuted). Proved: what every page with cached and excluded parts, nested in each other in any way, prints and leaves in the cache (C119_render), that stored texts have all excluded parts as written (C119_stored), how old the texts are, for all histories (C119_age, C119_pass, C119_requests), and that code in an excluded part is evaluated as anywhere (C119_carried, for all code). Missing: excluded parts inside other BIFs than cache; C119_render needs that the texts around have no {: or :} (C119_texts: met when no evaluation gives braces) and that the limit of BIFs is not reached.",
"C120": "PARTIAL False for what comes after the first excluded part (C120_refuted: noparse and join). Proved for all pages: what comes before it stays as it is, and all of the rest is evaluated as template code (C120_exact, C120_render: when that evaluation has no errors); without excluded parts all stays (C120_kept).",
"C121": "For all pages of templates and cached parts nested to any depth, all kinds of requests that the entries tell apart as far as needed (Faithful), all histories and clocks. C121_steady is the syntactic class of templates; C121_needed shows why templates with traces are excluded. Excluded parts and cached parts inside other BIFs are not in these pages (C119, C75).",
"C122": "For all pages, kinds faithful as FaithfulItems says, all histories. Equality with the uncached page only up to white space: C122_spaces shows it is not exact. Premises: calm texts between excluded parts, number of passes j at most n, BIF limit not reached.",
"C123": "For all states, modifiers and arguments, literal or computed. fetch without an address is C74_no_address, count C103, obj C64.",
"C124": "C124_text: a text a, BIF B, b, where evaluating a leads to (sh1, inh1), B fails there with any message (runBif = failed ..., the outcome C42 and C123 give for the errors they describe), and B' shows nothing there: both texts produce the same text and the same Inherit, and states related by ButErrors (all fields equal but schema.__error, hasError and the tick). C124_render: whole renders of the two templates: same output, status, count of BIFs, files, data. C124_unknown: an unknown BIF against {:code;:}. The condition Unaware (no BIF evaluated in b, at any depth, is date, cache, rand, hash, obj or debug) is on the run after the error; sample: debug sees the error. The first pass must leave no {:!cache; in the output (C124_render).",
"C125": "C125_render (pages of texts and variables; Displays is the HTML reading of C01, independent of the model; the values are those of the data as given, before they are sanitised), C125_exact (data without &: displayed exactly), C125_bif (one variable, any template, any state), C125_request (request data as given at the start, at any place of any template, any state), C125_clean (every text built of characters and escapes displays what it denotes). unescape_chars reads references as the code does: an & before one hides it (it is then displayed as written). C125_premises_needed: unfiltered data are read as HTML, and request data under keys with special characters are found under the encoded key.",
"C126": "C126_text: page or nested block a ++ B ++ b, any state in which B ends the page (exit is set by B or by anything evaluated in it); C126_render: whole renders of two pages that begin alike and go on with different texts, each with a BIF or comment; C126_replaced: any rest, when the page is replaced (three-digit status 400-599, 301, 302, 303, 307, 308, or a JavaScript redirection). The pages are well formed (an unmatched delimiter after the end is an error of the whole page, see C29) and the text printed before the end does not hold {:!cache;, which a second pass would evaluate (C75).",
"C127": "C127_text: page or nested block a ++ t ++ B ++ b, with t text and comments (Stripped, the specification of C16), any state in which B prints nothing and does not end the page; C127_render: whole renders, same output and same state. That B prints nothing is a premise on its evaluation (runBif … = .ok [] …), met by every BIF with empty output and no modifier ^. C127_premises_needed: ^ and the end of the page. Neither t nor b begins with ':' (after a brace it would begin a BIF).",
"C128": "C128_text: pages and nested blocks, any state, same state afterwards and same outputs of the BIFs (Woven; C128_determined: they determine the output); C128_render: whole renders (both end; the premises on {:!cache; concern outputs that a second pass would evaluate, C75), with the output that the final passes make of each text, and equal outputs of pages that are replaced by their status. C128_every: every well-formed page is some BIFs with texts and comments between them. C128_nested, C128_shown, C128_condition, C128_compare, C128_else, C128_coalesce, C128_code, C128_rounds, C128_each, C128_for: the same for the text in the code of those BIFs, which the rest of the page sees only in that the code prints something or nothing (C128_premise_needed).",
"C129": "Beside the exchange theorems: C68_split is the converse of C68_append (what a concatenation produces is what its parts produce, one after the other). C129_text (any place of any nested text) and C129_render (whole renders) exchange BIFs that do the same in the state reached; C129_condition, C129_compare, C129_else, C129_eval, C129_coalesce and C129_each give the exchangeable BIFs: unreached code of conditions, comparisons, else, eval, coalesce and loops over nothing. Code after the end of a page is C126, comments are C17. The code of a BIF must still be delimited (the page must be well formed), since the blocks are found before anything is evaluated.",
"C130": "A congruence: C130_place and C130_anywhere exchange a BIF in a text (in the state reached, or in all states), C130_before puts text in front, C130_code_of goes from texts to codes of BIFs, C130_condition/compare/else/eval/coalesce/code/flags/rounds/each/for from codes to BIFs, C130_render and C130_pages to whole renders; applied one after the other they reach every depth. C130_spaces is a law to begin with (white space around the text of a code). An evaluation that panics (BIF limit) is not a result: only results are compared, so the second page must be shown to do what the first does when that has a result. For laws that change the number of BIFs see C113."
}