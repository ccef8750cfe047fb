{"id": "C01", "title": "escape_chars leaves no raw special character", "statement": "For every input string, the result of escape_chars(s, true) contains none of < > \" ' / { }, and every & in it starts one of the eight entities the function emits; escape_chars(s, false) gives the same guarantee without the braces and never touches braces. A string without special characters is returned unchanged, and a browser shows the result as exactly the input.", "quantifier": "all strings, both values of escape_braces", "why_tests_cant": "the set of strings is infinite; a test only covers the characters it lists", "anchors": ["src/utils.rs: escape_chars"]}
{"id": "C02", "title": "unescape_chars undoes escape_chars", "statement": "For every string s and every flag b, unescape_chars(escape_chars(s, b), b) == s, so escaping loses no information; in particular escape_chars is injective.", "quantifier": "all strings, both flags", "why_tests_cant": "infinitely many inputs, including strings that already look like entities", "anchors": ["src/utils.rs: escape_chars, unescape_chars"]}
{"id": "C03", "title": "Filtering is idempotent (no double encoding)", "statement": "The filter the library applies to data (unescape then escape) applied twice equals applying it once, for every string; filtering an escaped string gives back the escaped string.", "quantifier": "all strings, both flags", "why_tests_cant": "double encoding depends on arbitrary interleavings of & and entity fragments", "anchors": ["src/utils.rs: filter_value, escape_chars, unescape_chars", "src/bif/parse_bif_var.rs"]}
{"id": "C04", "title": "All request (CONTEXT) data is sanitised before the template runs", "statement": "After render initialisation, no string value and no object key anywhere below data.CONTEXT, at any depth, contains < > \" ' / { }; values that are not strings are untouched, arrays keep their length, and nothing outside data.CONTEXT is changed by the sanitisation.", "quantifier": "all schemas (any nesting depth, any size)", "why_tests_cant": "needs induction over arbitrary JSON trees", "anchors": ["src/utils.rs: filter_value, filter_value_keys", "src/template.rs: init_render, init_render_once"]}
{"id": "C05", "title": "Sanitising CONTEXT loses no entry", "statement": "Sanitising the keys of an object keeps all of its entries: two different keys never end up as one.", "quantifier": "all JSON objects", "why_tests_cant": "key collisions only appear for particular pairs of keys", "anchors": ["src/utils.rs: filter_value_keys"]}
{"id": "C06", "title": "Schema merge: last writer wins, recursively, nothing else is lost", "statement": "After merging b into a: looking up any path of keys gives b's value when b has a non-object there, a's value when b does not mention the path, and the recursive merge when both are objects; existing keys keep their position and new keys are appended in b's order; merging the same b again changes nothing; and the by-reference and owned versions give the same result.", "quantifier": "all pairs of JSON values, all paths", "why_tests_cant": "quantifies over arbitrary trees and paths", "anchors": ["src/utils.rs: merge_schema, merge_schema_owned"]}
{"id": "C07", "title": "update_schema keeps the ajax header in three spellings and stamps the version", "statement": "After any schema update on an object schema, version is the crate version, and if data.CONTEXT.HEADERS has any of requested-with-ajax / Requested-With-Ajax / REQUESTED-WITH-AJAX then all three exist and are equal; every other header is unchanged.", "quantifier": "all schemas and updates", "why_tests_cant": "arbitrary header objects and merge order", "anchors": ["src/utils.rs: update_schema, update_schema_owned"]}
{"id": "C08", "title": "Schema update never panics", "statement": "merge_schema_str / merge_schema_value / from_file_value accept any valid JSON document without panicking.", "quantifier": "all JSON documents", "why_tests_cant": "an adversarial document is needed", "anchors": ["src/utils.rs: update_schema_owned", "src/template.rs: merge_schema_str"]}
{"id": "C09", "title": "Variable paths resolve to the value stored at that path", "statement": "Reading a name written k1->k2->...->kn (or with /) yields exactly the value reached by following the keys one by one, array elements by decimal index; empty segments are ignored; a name without separators is a plain key lookup. Hence a value reachable by keys that contain neither -> nor / is readable at the joined path.", "quantifier": "all JSON values, all names", "why_tests_cant": "arbitrary depth and arbitrary key strings", "anchors": ["src/utils.rs: resolve_pointer, get_from_key"]}
{"id": "C10", "title": "Whatever is set under a name can be read back under that name", "statement": "A parameter, snippet or declaration set under a name is returned when that name is used later in the same block.", "quantifier": "all names and contents", "why_tests_cant": "names with separators, empty names and unusual characters", "anchors": ["src/bif/parse_bif_param.rs", "src/bif/parse_bif_snippet.rs", "src/utils.rs: get_from_key"]}
{"id": "C11", "title": "Truth tests on data agree with each other", "statement": "For every value: filled holds iff the value is not missing/null/empty; defined holds iff it is present and not null; array holds iff it is an object or array; bool implies filled implies defined; the negated form of each conditional is its exact complement.", "quantifier": "all JSON values and names", "why_tests_cant": "exhaustive over JSON values", "anchors": ["src/utils.rs: is_empty_key, is_bool_key, is_array_key, is_defined_key"]}
{"id": "C12", "title": "Wildcard matching follows its specification", "statement": "wildcard_match(text, pattern) is true exactly when text belongs to the language of the pattern: . is an optional character, ? exactly one, * any sequence, ~ end of text, backslash makes the next character literal, any other character itself. A pattern without wildcards matches only itself.", "quantifier": "all texts and patterns", "why_tests_cant": "infinite language; backtracking search", "anchors": ["src/utils.rs: wildcard_match"]}
{"id": "C13", "title": "allow only lets whitelisted text through", "statement": "Whatever the template and data, the output of {:allow; name >> code :} (without ! or replace) is either empty or the evaluated code, and in the latter case some word declared under name matches it.", "quantifier": "all words, flags and evaluated codes", "why_tests_cant": "quantifies over evaluated content", "anchors": ["src/bif/parse_bif_allow.rs"]}
{"id": "C14", "title": "Block extraction is sound", "statement": "For every source, extract_blocks terminates and when it succeeds the blocks are in order, disjoint, inside the source, each starts with {: and ends with :}, the text between blocks contains no :}, and text and blocks concatenated give back the source. When it fails the reported position is a :} outside every block.", "quantifier": "all strings", "why_tests_cant": "arbitrary nesting, unclosed openers, multi-byte text", "anchors": ["src/utils.rs: extract_blocks"]}
{"id": "C15", "title": "Block extraction is complete on well-formed templates", "statement": "If a template is plain text (without delimiters) interleaved with well-nested BIFs and comments, to any depth, extract_blocks returns exactly the top-level BIFs and comments.", "quantifier": "all well-nested templates of any depth and size", "why_tests_cant": "unbounded nesting depth", "anchors": ["src/utils.rs: extract_blocks"]}
{"id": "C16", "title": "Comment removal removes comments and nothing else", "statement": "For every well-formed template remove_comments deletes exactly the comments (nested ones included); a source without {:* is unchanged; it never panics.", "quantifier": "all strings", "why_tests_cant": "unclosed and nested comments", "anchors": ["src/utils.rs: remove_comments"]}
{"id": "C17", "title": "Comments are never executed and never printed", "statement": "A comment block produces no output, creates no BIF and changes no state, whatever it contains.", "quantifier": "all comment bodies and all states", "why_tests_cant": "arbitrary bodies", "anchors": ["src/block_parser.rs: parse_with_blocks"]}
{"id": "C18", "title": "The parameter/code separator is the first top-level >>", "statement": "get_code_position returns the first >> that is not inside a nested BIF; if the source has no top-level >> all of it is code and the parameters are empty.", "quantifier": "all sources with well-nested BIFs", "why_tests_cant": "arbitrary nesting", "anchors": ["src/utils.rs: get_code_position", "src/bif/mod.rs: extract_params_code"]}
{"id": "C19", "title": "Rendering is bounded by infinite_loop_max_bifs", "statement": "Evaluating a template never runs forever by recursion: every block evaluation terminates, creating at most infinite_loop_max_bifs BIFs, and it panics exactly when one more would be created; the counter never decreases.", "quantifier": "all templates, schemas, files (including self-including ones)", "why_tests_cant": "recursive snippets and includes; needs a termination argument", "anchors": ["src/bif/mod.rs: Bif::new", "src/block_parser.rs"]}
{"id": "C20", "title": "render always returns", "statement": "The post-processing loop of render (re-evaluating !cache blocks) terminates for every template.", "quantifier": "all templates and data", "why_tests_cant": "the loop condition depends on rendered output", "anchors": ["src/template.rs: render"]}
{"id": "C21", "title": "Templates cannot change configuration", "statement": "Nothing a template does changes the configuration, language, inherited defaults or any top-level schema key other than data (and the internal move and error lists); the cached configuration flags stay those derived from the schema.", "quantifier": "all templates, data and files", "why_tests_cant": "universal over programs", "anchors": ["src/shared.rs", "src/bif/*"]}
{"id": "C22", "title": "Errors are never lost", "statement": "During a render the error list only grows, and has_error() is true exactly when the error list is non-empty.", "quantifier": "all templates", "why_tests_cant": "universal over programs", "anchors": ["src/bif/mod.rs: parse", "src/template.rs: has_error, get_error"]}
{"id": "C23", "title": "exit stops evaluation", "statement": "Once exit (or redirect) has taken effect, no further BIF is executed in the current block or any enclosing block, and no state changes.", "quantifier": "all templates and all points at which exit happens", "why_tests_cant": "every position in every template", "anchors": ["src/block_parser.rs: parse_with_blocks", "src/bif/parse_bif_exit.rs"]}
{"id": "C24", "title": "Block scope isolation", "statement": "Parameters, declarations, locale and local data set inside a block are not visible after the block: a BIF without the + modifier (other than include and the setting BIFs themselves) leaves those of the enclosing block unchanged.", "quantifier": "all templates, nesting depths and states", "why_tests_cant": "universal over programs; copy-on-write store with reuse of block ids", "anchors": ["src/block_parser.rs: create_block_schema, update_indir, Drop", "src/macros.rs: new_child_parse"]}
{"id": "C25", "title": "Variable output cannot inject template code", "statement": "With cache enabled (the default) the output of a variable never contains {: or :}, and with the filter modifier or filter_all none of the special characters (for names outside CONTEXT).", "quantifier": "all values and names", "why_tests_cant": "adversarial data", "anchors": ["src/bif/parse_bif_var.rs"]}
{"id": "C26", "title": "Rendered data is never evaluated as template code", "statement": "Data values are never interpreted as BIFs, in either pass of rendering.", "quantifier": "all data values and templates", "why_tests_cant": "adversarial data, second pass", "anchors": ["src/bif/parse_bif_join.rs", "src/template.rs: render"]}
{"id": "C27", "title": "Dynamic variable names require allow", "statement": "{:;{:;name:}:} (a name that is itself a variable) is rejected with an error and no output, whatever the data.", "quantifier": "all inner names and states", "why_tests_cant": "arbitrary inner sources", "anchors": ["src/bif/mod.rs: contains_allow", "src/bif/parse_bif_var.rs"]}
{"id": "C28", "title": "Plain text is rendered unchanged", "statement": "A template without {: renders to itself with surrounding whitespace removed and runs no BIF; a template of text and comments only renders to its text.", "quantifier": "all texts", "why_tests_cant": "all strings", "anchors": ["src/template.rs: render", "src/block_parser.rs"]}
{"id": "C29", "title": "An unmatched closing delimiter is reported as 500", "statement": "If the source of a template that contains {: has a :} outside every block the render result is 500 Internal Server Error, status code 500, and no BIF of the template runs.", "quantifier": "all such sources", "why_tests_cant": "arbitrary sources", "anchors": ["src/block_parser.rs: handle_unmatched_block", "src/template.rs: set_status_code"]}
{"id": "C30", "title": "render_once equals render", "statement": "On a template not yet rendered, render_once and render give the same output, status and errors.", "quantifier": "all templates and schemas", "why_tests_cant": "two code paths compared on all inputs", "anchors": ["src/template.rs: init_render, init_render_once"]}
{"id": "C31", "title": "render can be repeated", "statement": "Calling render again without changing the template gives the result of rendering a fresh template with the same source and schema; the schema held by the template is not changed by rendering.", "quantifier": "all templates, schemas and histories of renders", "why_tests_cant": "history property", "anchors": ["src/template.rs: render"]}
{"id": "C32", "title": "A template remains usable after render_once", "statement": "After render_once further calls produce output with empty variables, as documented (no panic).", "quantifier": "all templates", "why_tests_cant": "history property", "anchors": ["src/template.rs: render_once"]}
{"id": "C33", "title": "Conditional BIFs: exact complement and short circuit", "statement": "For bool, filled, defined, array, same, contains: exactly one of the plain and the negated form shows its code; when the condition fails the output is empty and the code is not evaluated at all.", "quantifier": "all conditions, codes and states", "why_tests_cant": "universal over codes", "anchors": ["src/bif/parse_bif_bool.rs", "src/bif/parse_bif_same.rs", "..."]}
{"id": "C34", "title": "else is the complement of the previous BIF", "statement": "{:else; :} shows its code iff the previous BIF in the block gave empty output, {:!else; :} iff it gave some.", "quantifier": "all blocks", "why_tests_cant": "history property", "anchors": ["src/bif/parse_bif_else.rs", "src/bif/mod.rs: parse"]}
{"id": "C35", "title": "coalesce evaluates up to the first non-empty BIF", "statement": "Inside coalesce, once one BIF has produced output no later BIF of that block is evaluated.", "quantifier": "all blocks", "why_tests_cant": "universal over codes", "anchors": ["src/bif/parse_bif_coalesce.rs", "src/block_parser.rs"]}
{"id": "C36", "title": "Loops restore the variables they use", "statement": "After {:each; ...:} and {:for; ...:} the loop variables have the values they had before, and the loop runs once per element in order.", "quantifier": "all collections, bodies and names", "why_tests_cant": "universal over loop bodies", "anchors": ["src/bif/parse_bif_each.rs", "src/bif/parse_bif_for.rs"]}
{"id": "C37", "title": "moveto moves each distinct code once", "statement": "Moving the same code (up to spaces and newlines) again does not duplicate it; the code is inserted right after the opening tag or right before the closing tag, and the rest of the output is unchanged.", "quantifier": "all codes, tags and outputs", "why_tests_cant": "universal over output texts", "anchors": ["src/bif/parse_bif_moveto.rs", "src/template.rs: set_moveto", "src/utils.rs: find_tag_position"]}
{"id": "C38", "title": "Cache transparency", "statement": "A cache hit returns exactly what was stored for the same key and not expired; two requests that differ in language, expiry, POST, GET, cookies, host, route or code never share an entry.", "quantifier": "all requests and histories", "why_tests_cant": "hash keys and histories", "anchors": ["src/bif/parse_bif_cache.rs"]}
{"id": "C39", "title": "Cache files are complete", "statement": "A reader never uses a partially written cache file, under any interleaving of renders and any crash point.", "quantifier": "all interleavings and crash points", "why_tests_cant": "schedules and crash points", "anchors": ["src/bif/parse_bif_cache.rs"]}
{"id": "C40", "title": "Error statuses replace the content", "statement": "For a three-digit status code the final output is replaced by code and text exactly when the code is 400-599, and by code, text and parameter exactly when it is 301,302,303,307,308; any other code keeps the content. Custom codes above 999 keep the content.", "quantifier": "all status codes", "why_tests_cant": "string comparison over all strings", "anchors": ["src/template.rs: set_status_code"]}
{"id": "C41", "title": "Redirect accepts only the documented types", "statement": "redirect sets exit with one of 301,302,303,307,308 and a non-empty URL, or a js redirect; anything else is an error that leaves status and exit unchanged.", "quantifier": "all parameters and codes", "why_tests_cant": "universal", "anchors": ["src/bif/parse_bif_redirect.rs"]}
{"id": "C42", "title": "Malformed or unknown BIFs never produce output", "statement": "A BIF with an unknown name, without ;, or with a modifier it does not accept gives no output and is recorded as an error.", "quantifier": "all names and sources", "why_tests_cant": "universal over names", "anchors": ["src/bif/mod.rs: parse", "src/bif/parse_bif_unknown.rs"]}
{"id": "C43", "title": "Templates cannot crash the renderer", "statement": "No template makes the renderer panic other than by exceeding the BIF budget.", "quantifier": "all templates", "why_tests_cant": "adversarial input", "anchors": ["src/bif/mod.rs: set_modifiers", "src/utils.rs: remove_comments"]}
{"id": "C44", "title": "safe code is inert", "statement": "{:code; {:flg; safe :} >> text :} and include with safe print text with no raw < > \" ' / and no {: or :}, and evaluate nothing.", "quantifier": "all texts and files", "why_tests_cant": "adversarial content", "anchors": ["src/bif/parse_bif_code.rs", "src/bif/parse_bif_include.rs"]}
{"id": "C45", "title": "Translation falls back to the text", "statement": "{:trans; t :} gives the translation of t in the current language or, when there is none, t itself ({:!trans;} gives nothing); translations never leak from another language.", "quantifier": "all texts and locales", "why_tests_cant": "universal", "anchors": ["src/bif/parse_bif_trans.rs"]}
{"id": "C46", "title": "The fetch script is emitted at most once", "statement": "In one render the JavaScript for fetch is emitted by at most one fetch, and by none when disable_js is set.", "quantifier": "all templates", "why_tests_cant": "history property", "anchors": ["src/bif/parse_bif_fetch.rs"]}
{"id": "C47", "title": "Unprintable and upline marks never reach the user", "statement": "The final output contains no upline mark and no unprintable mark; text without marks is unchanged by the final replacements; an upline mark removes exactly the white space before it.", "quantifier": "all outputs", "why_tests_cant": "marks can be created by removing other marks", "anchors": ["src/template.rs: replacements"]}
{"id": "C48", "title": "rand respects its range, sum adds its arguments, lang prints the language", "statement": "rand a..b is within [a,b] and an error when a > b or not numbers; sum of two numbers prints their sum; lang prints the configured language.", "quantifier": "all arguments", "why_tests_cant": "universal", "anchors": ["src/bif/parse_bif_rand.rs", "src/bif/parse_bif_sum.rs", "src/bif/parse_bif_lang.rs"]}
{"id": "C49", "title": "Replacement is complete", "statement": "Text replacement with a non-empty pattern leaves the text around matches intact and joins pieces in order; when the pattern does not occur the text is unchanged.", "quantifier": "all texts and patterns", "why_tests_cant": "universal", "anchors": ["src/bif/parse_bif_replace.rs"]}
{"id": "C50", "title": "FastCGI framing is correct", "statement": "Every record sent has a header whose lengths match the content and padding, is a multiple of 8 bytes, and a standard FastCGI reader recovers the content; name/value lengths decode to what was encoded; reading a response returns exactly the concatenated STDOUT of request 1.", "quantifier": "all payloads and all well-formed responses", "why_tests_cant": "arbitrary record splits", "anchors": ["src/bif/exec_php.rs"]}
{"id": "C51", "title": "PHP objects receive payloads of any size", "statement": "The request body sent to PHP may be of any size.", "quantifier": "all payload sizes", "why_tests_cant": "size boundary", "anchors": ["src/bif/exec_php.rs: write_record, send_fastcgi_request"]}
{"id": "C52", "title": "include once", "statement": "{:!include; f :} evaluates a file at most once per scope: when the file was already included in this scope the output is empty and nothing is evaluated.", "quantifier": "all files and states", "why_tests_cant": "history property", "anchors": ["src/bif/parse_bif_include.rs"]}
{"id": "C53", "title": "Status text always corresponds to the status code", "statement": "At any time during and after a render the status text is the standard text of the status code, or empty when the code is not a known one.", "quantifier": "all templates", "why_tests_cant": "invariant over all executions", "anchors": ["src/bif/parse_bif_exit.rs", "src/bif/parse_bif_redirect.rs", "src/block_parser.rs"]}
{"id": "C54", "title": "Local data survives loading more local data", "statement": "{:data; ... :} merges the file's data into the local data already visible: keys the new file does not mention keep their value.", "quantifier": "all files and states", "why_tests_cant": "universal over JSON", "anchors": ["src/bif/parse_bif_data.rs"]}
{"id": "C55", "title": "The reported status and errors are those of the last render", "statement": "After any render the status code, text, parameter and errors reported by the template are those of that render: they do not depend on what was rendered before with the same template object.", "quantifier": "all histories of a template object", "why_tests_cant": "it relates the end of one render to all earlier ones", "anchors": ["src/template.rs: render, get_status_code, has_error", "src/shared.rs: Shared::new"]}
{"id": "C56", "title": "A PHP answer that is cut short is an error", "statement": "When the PHP side dies, closes the connection or stops answering in the middle of an answer, the call is an error: a part of the answer is never taken for the whole.", "quantifier": "all well-formed answers and all points at which they stop", "why_tests_cant": "crash points", "anchors": ["src/bif/exec_php.rs: read_fastcgi_response, exec_php"]}
{"id": "C57", "title": "Loaded translations are merged with the earlier ones", "statement": "{:locale; ... :} merges the document (inline or from a file, which may itself contain BIFs) into the translations the block sees: translations it does not mention keep their text, those it mentions get the new text, and nothing else changes.", "quantifier": "all documents, files and states", "why_tests_cant": "universal over JSON documents and states", "anchors": ["src/bif/parse_bif_locale.rs", "src/utils.rs: merge_schema_owned"]}
{"id": "C58", "title": "eval decides by the evaluated text of its condition", "statement": "{:eval; cond >> code :} evaluates cond; the code is evaluated and shown when the evaluated text is not empty (with ! when it is empty), and inside the code the variable __eval__ holds that text; otherwise nothing is shown. Flags in the condition are an error without output.", "quantifier": "all conditions, codes, modifiers and states", "why_tests_cant": "universal over templates and states, needs the nested evaluation", "anchors": ["src/bif/parse_bif_eval.rs"]}
{"id": "C59", "title": "join prints every element, separated", "statement": "{:join; /name/sep/ :} shows the elements of the array or object (or, with the third argument, its keys) in order, with the separator between them and nowhere else.", "quantifier": "all collections, names and separators", "why_tests_cant": "universal over data", "anchors": ["src/bif/parse_bif_join.rs"]}
{"id": "C60", "title": "The schema of a template is the default schema updated by the documents merged, in order", "statement": "For each path of the schema, the value is the one given by the last merged document that mentions it, or the default one; the documents may come as values, JSON text, files or MessagePack, in constructors or in merge calls, with the same result. A document that cannot be read or is not valid is reported as an error, never ignored.", "quantifier": "all sequences of constructor and merge calls", "why_tests_cant": "history property over the API", "anchors": ["src/template.rs: from_file_value, from_file_msgpack, merge_schema_str, merge_schema_path, merge_schema_value, merge_schema_msgpack, set_src_path, set_src_str"]}
{"id": "C61", "title": "A render changes no files other than its cache files and the PHP bridge script", "statement": "Whatever a template and its data say, render and render_once change no file outside the cache directory and prefix given by the schema's configuration, except that the bridge script a PHP object needs is created beside that script; with cache_disable no cache file changes; no file is removed.", "quantifier": "all templates, schemas, data and file systems", "why_tests_cant": "confinement: a universal statement over all executions", "anchors": ["src/bif/parse_bif_cache.rs", "src/bif/parse_bif_obj.rs: ensure_bridge_script_exists", "src/template.rs: render", "src/shared.rs: Shared::new"]}
{"id": "C62", "title": "A Python object runs its own script", "statement": "When an object names a Python script, the function that is called is the one defined in that script, whatever other objects ran before or run at the same time in the process.", "quantifier": "all histories and schedules of object calls in one process", "why_tests_cant": "schedules of concurrent renders and interpreter history", "anchors": ["src/bif/exec_python.rs: exec_py, PythonExecutor"]}
{"id": "C63", "title": "A Python object sees the schema and schema data of its own call", "statement": "The function called sees as __NEUTRAL_SCHEMA__ and __NEUTRAL_SCHEMA_DATA__ exactly what its own object asked for: never the schema of another call, earlier or concurrent, and nothing when it did not ask.", "quantifier": "all histories and schedules of object calls in one process", "why_tests_cant": "schedules of concurrent renders in one interpreter", "anchors": ["src/bif/exec_python.rs: exec_py"]}
{"id": "C64", "title": "An object calls its script once with what its definition says, and shows its result", "statement": "{:obj; definition >> code :}: the definition (inline JSON or a JSON file) has the texts of file, template, venv, schema_data, fpm and params evaluated; the script is called once, with these parameters, its callback, and the schema or data it asks for; an error is an error without output; otherwise the code is shown with the data of the result as local data. The result is data: it is never evaluated as template code.", "quantifier": "all definitions, scripts, results, codes and states", "why_tests_cant": "universal over definitions, script results and states", "anchors": ["src/bif/parse_bif_obj.rs"]}
{"id": "C65", "title": "debug shows data only while a fresh debug file exists", "statement": "{:debug; key :} shows the JSON of the schema value at key only when the configuration names a debug file that exists, is a regular file, is not from the future and is younger than debug_expire; otherwise it shows nothing, evaluates nothing and is an error. {:!debug; :} tests the same condition and shows no data.", "quantifier": "all keys, schemas, file systems and clock readings", "why_tests_cant": "universal over the file system and the clock: the secret must not leak in any state", "anchors": ["src/bif/parse_bif_debug.rs: parse_bif_debug, debug_enable", "src/shared.rs: Shared::new"]}
{"id": "C66", "title": "File names computed from data need an allow list", "statement": "include, data and locale refuse a file name that contains a variable unless the name is filtered by {:allow; :}: the file is not read and an error is raised.", "quantifier": "all templates, data and file systems", "why_tests_cant": "universal over templates and data", "anchors": ["src/bif/parse_bif_include.rs", "src/bif/parse_bif_data.rs", "src/bif/parse_bif_locale.rs"]}
{"id": "C67", "title": "A missing file shows nothing, and is an error when required", "statement": "include, data and locale of a file that does not exist show nothing; with the flag {:flg; require :} this is an error. No data or translations change.", "quantifier": "all file names, file systems and states", "why_tests_cant": "universal over file systems", "anchors": ["src/bif/parse_bif_include.rs", "src/bif/parse_bif_data.rs", "src/bif/parse_bif_locale.rs"]}
{"id": "C68", "title": "Templates are evaluated compositionally", "statement": "The output of a template is its text with every BIF replaced by the output of that BIF, from left to right, each evaluated in the state its predecessor left; nested blocks work on their own scope, which the surrounding template does not see; evaluating A followed by B is evaluating A and then B.", "quantifier": "all templates, states and nestings", "why_tests_cant": "universal over all templates and nesting depths", "anchors": ["src/block_parser.rs: parse_with_blocks", "src/macros.rs: new_child_parse", "src/template.rs: render"]}
{"id": "C69", "title": "A BIF prints its output without surrounding white space, and ^ removes the white space before it", "statement": "What a BIF prints is its output trimmed of surrounding white space; with the modifier ^ the white space of the text before the BIF is removed too, and nothing else of that text.", "quantifier": "all BIFs, outputs, preceding texts and states", "why_tests_cant": "universal over outputs and texts", "anchors": ["src/bif/mod.rs: parse", "src/template.rs: replacements", "doc/modifiers.md"]}
{"id": "C70", "title": "The flags of code do what they say", "statement": "{:code; {:flg; ... :} >> c :}: noparse prints c as written; encode_bifs prints c with its delimiters encoded, evaluating nothing; encode_tags encodes the HTML of c and evaluates its BIFs; encode_tags_after encodes the HTML of the output; safe does all of these; a word that is not one of these flags is an error without output. The collected flags are exactly the words of flg.", "quantifier": "all codes, flags and states", "why_tests_cant": "universal over codes, flag combinations and states", "anchors": ["src/bif/parse_bif_code.rs", "src/bif/parse_bif_flg.rs", "src/utils.rs: escape_chars, unescape_chars"]}
{"id": "C71", "title": "Definitions are accepted only where they are documented", "statement": "param is set only inside code; snippets are set only in files whose name contains the word snippet (or inside a snippet), declarations only in such files; elsewhere the definition is an error and defines nothing. A static snippet has the text its code evaluates to where it is set.", "quantifier": "all definitions, places and states", "why_tests_cant": "universal over places and states: definitions are the allow lists of C13", "anchors": ["src/bif/parse_bif_param.rs", "src/bif/parse_bif_snippet.rs", "src/bif/parse_bif_declare.rs", "src/macros.rs: new_child_parse"]}
{"id": "C72", "title": "include evaluates the file in its place, and file names beginning with # belong to the directory of their file", "statement": "{:include; f :} prints what the text of the file f evaluates to in the block where it is written; with noparse it prints the file as it is; with ! a file already included is not evaluated again. In a template, names beginning with # are in the directory of the file the template was read from (or in the working directory). Inside the file, they are in the directory of that file; after it, they are in the directory of the including file again.", "quantifier": "all files, directories, BIFs and states", "why_tests_cant": "universal over file systems and templates", "anchors": ["src/bif/parse_bif_include.rs", "src/bif/parse_bif_snippet.rs", "src/macros.rs: new_child_parse"]}
{"id": "C73", "title": "hash, date, neutral and count print what is documented", "statement": "{:hash; text :} prints the md5 of the evaluated text, a random hash when there is none; {:date; format :} prints the present UTC time in the format, the timestamp when there is none; {:neutral; ... :} prints itself unevaluated; {:count; ... :} is deprecated and always an error.", "quantifier": "all texts, formats, states and environments", "why_tests_cant": "universal over texts, clocks and states", "anchors": ["src/bif/parse_bif_hash.rs", "src/bif/parse_bif_date.rs", "src/bif/parse_bif_neutral.rs", "src/bif/parse_bif_count.rs"]}
{"id": "C74", "title": "fetch prints the element of the documentation", "statement": "{:fetch; |url|event|wrapperId|class|id|name| >> code :} prints the container of the event (a form for form; none, visible, click, and otherwise auto) with the evaluated arguments and code in their places, nothing else changed; without url it is an error without output.", "quantifier": "all arguments, codes and states", "why_tests_cant": "universal over arguments and codes", "anchors": ["src/bif/parse_bif_fetch.rs", "src/constants.rs: DIV_FETCH_FORM, DIV_FETCH_AUTO"]}
{"id": "C75", "title": "What is excluded from the cache is evaluated at each request and never stored", "statement": "With the cache disabled, or for requests with POST, GET or cookie data whose caching is not configured, {:cache; ... :} gives the evaluation of its code and reads and writes no entry. Inside a cached block {:!cache; ... :} is stored as its text, unevaluated; elsewhere it gives the evaluation of its code.", "quantifier": "all requests, settings, codes and states", "why_tests_cant": "universal over requests, settings and codes", "anchors": ["src/bif/parse_bif_cache.rs"]}
{"id": "C76", "title": "A BIF changes only what it is documented to change", "statement": "Evaluating a template whose evaluated texts (its own and those of files, snippets and data evaluated as templates) contain no exit and no redirect leaves status, exit and redirect as they were (except for the 500 of unmatched delimiters); with no each, for, eval and count it leaves the data of the schema as it was; with no moveto nothing is moved; with no cache and no obj no file is written.", "quantifier": "all templates, files, schemas, depths and states", "why_tests_cant": "universal over templates and over the texts they evaluate; a test sees one template", "anchors": ["src/bif/mod.rs: parse", "src/bif/parse_bif_exit.rs", "src/bif/parse_bif_redirect.rs", "src/bif/parse_bif_each.rs", "src/bif/parse_bif_for.rs", "src/bif/parse_bif_eval.rs", "src/bif/parse_bif_count.rs", "src/bif/parse_bif_moveto.rs", "src/bif/parse_bif_cache.rs", "src/bif/parse_bif_obj.rs"]}
{"id": "C77", "title": "Templates mean what they say", "statement": "For every template written with text, variables (of the data or local, with or without the filter), the tests array, bool, defined and filled, the comparisons same and contains, else, coalesce, code, each, for over numbers, parameters (read and set), trans, replace, allow lists, eval, hash, join, files of data (data) and of translations (locale), the language, the marks {:;:} and {:^;:} (which goes in the end with the white space before it), included files and snippets (negated or with the modifier + where allowed, nested in each other without limit), and every schema and files: the render prints the text obtained by reading the template from left to right over the data and the definitions - a variable is its value in printed form, a test shows its code when it holds, else shows its code when the last BIF printed nothing, coalesce shows the first BIF that prints, a loop binds its variables in every round in order and restores them, a parameter set in a block is read in it and in the blocks inside, and by those around only with +, an included file is what is in the file, a snippet is what it was defined as, replace replaces every occurrence in its block, allow prints its block when a declared word matches it, eval shows its code when its test prints something and binds __eval__ to it, hash prints the MD5 of its evaluated code, join prints the members (or keys) of a list or object with the separator between them, a file of data or translations adds its entries to the local data or the translations for the rest of the block - and ends with the data and the number of BIFs that reading gives, status 200 and no error.", "quantifier": "all templates of that language (any size, any nesting), all schemas and data", "why_tests_cant": "universal over an infinite language with unbounded nesting; a test renders one template", "anchors": ["src/block_parser.rs: parse_with_blocks", "src/bif/mod.rs: parse", "src/bif/parse_bif_var.rs", "src/bif/parse_bif_bool.rs", "src/bif/parse_bif_same.rs", "src/bif/parse_bif_else.rs", "src/bif/parse_bif_coalesce.rs", "src/bif/parse_bif_code.rs", "src/bif/parse_bif_each.rs", "src/bif/parse_bif_for.rs", "src/bif/parse_bif_param.rs", "src/bif/parse_bif_trans.rs", "src/bif/parse_bif_include.rs", "src/bif/parse_bif_snippet.rs", "src/template.rs: render"]}
{"id": "C78", "title": "Filtered templates print no raw data", "statement": "If a template of the language of C77 has no replace and no join and reads no translations from files, and every variable it prints is filtered (by the modifier & or by filter_all), none of its loop variables is named CONTEXT, and none of its texts and translations ends in { or contains {:, then whatever the data are and however deep they are printed - in loops, tests, comparisons, parameters, translations, allow lists, eval, included files and snippets - the output consists of texts of the template, each whole up to its outer white space, of translations, and of clean texts without special characters and with & only in entities; a special character that no text and no translation has is not in the output, and the output has no delimiter, so data cannot inject markup or code.", "quantifier": "all filtered templates (any size, any nesting), all data", "why_tests_cant": "universal over templates and hostile data", "anchors": ["src/bif/parse_bif_var.rs", "src/utils.rs: filter_value, escape_chars, unescape_chars", "src/block_parser.rs", "src/template.rs: render"]}
{"id": "C79", "title": "Renders leave the variables as they were", "statement": "After a render of any template of the language of C77 every variable of the data that is not the variable of a for (nor __eval__) has the value it had at the start: loops give back the variables they set, at every depth. The variable of a for, and __eval__, has the value it had, or the text of that value.", "quantifier": "all templates of the language, all data, all variables", "why_tests_cant": "a property of all nestings of loops, including the same variable in inner and outer loops", "anchors": ["src/bif/parse_bif_each.rs", "src/bif/parse_bif_for.rs", "src/template.rs: render"]}
{"id": "C80", "title": "The output depends only on the variables that are named", "statement": "Two renders of the same template of the language of C77 with the same definitions, whose data agree in the entries its variables name (other than the variables its own loops set), give the same output, the same status and evaluate the same number of BIFs, whatever the rest of the data, the clock, the random numbers and the files not included are.", "quantifier": "all templates of the language, all pairs of data that agree on the named entries", "why_tests_cant": "a relation between two executions over all data (non-interference)", "anchors": ["src/utils.rs: resolve_pointer", "src/bif/parse_bif_var.rs", "src/bif/parse_bif_each.rs", "src/bif/parse_bif_for.rs", "src/template.rs: render"]}
{"id": "C81", "title": "A file or snippet means what its text means", "statement": "Replacing in any template of the language of C77 every included file by a code+ with the text of the file, and every snippet by a code with the text of the snippet, at every depth, changes neither the output nor the status nor the number of BIFs of a render.", "quantifier": "all templates of the language with their files and snippets, all data", "why_tests_cant": "a relation between two programs for all templates and data", "anchors": ["src/bif/parse_bif_include.rs", "src/bif/parse_bif_snippet.rs", "src/bif/parse_bif_code.rs", "src/block_parser.rs", "src/template.rs: render"]}
{"id": "C82", "title": "The options of the schema take effect", "statement": "Every render starts with, and keeps to its end, the options of the schema of the template: language, comments, the limit of BIFs, filter_all, cache_disable (and with it the sanitising of delimiters in variables), cache prefix, directory and conditions, disable_js, debug expiry and file, read from config (and from inherit) by the documented names, with the same notion of truth as the bool test; a render starts exactly when the two numbers are given. A template of the language of C77 renders to its meaning under those options.", "quantifier": "all schemas, all templates", "why_tests_cant": "universal over schemas; a test fixes one configuration", "anchors": ["src/shared.rs: Shared::new", "src/utils.rs: is_bool_key, get_from_key", "src/template.rs: render"]}
{"id": "C83", "title": "A PHP object gets the value of its function", "statement": "When PHP-FPM can be reached and the request fits, {:obj; :} with the engine php calls the named function of the named script, with the parameters of the object (the empty list when there are none), and the function sees the schema and schema data the object asked for, and null otherwise; a script that prints nothing and whose function returns a value that is not an error object of the bridge gives exactly this value; a script that is missing or fails to load, a missing function, a function that throws or returns what is no JSON are each their own error, never a value.", "quantifier": "all scripts, calls, values and answers of a FastCGI peer that runs the bridge script", "why_tests_cant": "composition of client, protocol and bridge script for every script and value", "anchors": ["src/bif/exec_php.rs: BRIDGE_SCRIPT, exec_php"]}
{"id": "C84", "title": "A Python object runs in its virtual environment", "statement": "A Python object that names a virtual environment runs with the packages of this environment; when the environment does not exist or has no Python, the object is an error and nothing runs or changes.", "quantifier": "all histories of objects in a process, all environments", "why_tests_cant": "depends on the whole history of the process", "anchors": ["src/bif/exec_python.rs: exec_py, setup_venv"]}
{"id": "C85", "title": "Cached parts of a page over all requests", "statement": "In every sequence of requests, for any pages and data, a cached part of a page shows either what evaluating it now gives or what an earlier request with the same cache entry evaluated, and the latter only while the lifetime counted from the storing is not over. Within the lifetime it is not evaluated again; when no entry is fresh, the page is exactly the page with the cached parts as plain code; the rest of the page is always evaluated with the data of the request; and a request changes no file but the entries it stores.", "quantifier": "all pages, schemas, contents of the cache, clocks and histories of requests", "why_tests_cant": "depends on the whole history of the cache and on the clock; unit tests see single renders", "anchors": ["src/bif/parse_bif_cache.rs", "src/block_parser.rs", "src/template.rs: render"]}
{"id": "C86", "title": "Byte positions never split a character", "statement": "Whatever characters a template, a key, a tag or an answer contains, every byte position the code computes and slices at is the boundary between two characters: finding blocks, removing comments, splitting parameters from code, following a path, placing moved text and cutting HTTP headers never panic on such a position and give the same as working on characters. The reported position of an unmatched :} is its byte offset. The one exception is the loop over modifiers, which panics exactly when the first character after the modifiers takes more than one byte.", "quantifier": "all texts (any Unicode scalar values, any length), all keys and all data", "why_tests_cant": "the panic needs a particular mix of multi-byte characters and delimiters at one offset; tests sample texts", "anchors": ["src/utils.rs: extract_blocks, remove_comments, get_code_position, resolve_pointer, find_tag_position", "src/bif/mod.rs: set_modifiers, extract_params_code", "src/template.rs: set_moveto", "src/bif/exec_php.rs: extract_http_body"]}
{"id": "C87", "title": "The list of errors tells what failed", "statement": "After a render the list of errors holds exactly the lines recorded by the BIFs evaluated in it, at any depth and in any pass: for a BIF without ';' a line with its text; for a BIF that fails one line with the time, the name of the BIF (var or unprintable for a variable, snippet for snip, unknown for an unknown name), the message, the current file and the text of the BIF. Every entry is a text in one line: line breaks are spaces, every other character is kept.", "quantifier": "all templates, schemas, worlds and histories of calls", "why_tests_cant": "the list is the result of the whole evaluation, with BIFs nested to any depth and several passes; tests look at single messages", "anchors": ["src/bif/mod.rs: Bif::parse, bif_error", "src/block_parser.rs", "src/template.rs: render, render_once, get_error"]}
{"id": "C88", "title": "No more errors than BIFs", "statement": "A render records at most one error for each BIF it evaluates, hence never more than infinite_loop_max_bifs errors, whatever the template.", "quantifier": "all templates, schemas and environments", "why_tests_cant": "a bound over all executions, through recursion", "anchors": ["src/bif/mod.rs: Bif::new, Bif::parse", "src/template.rs: render"]}
{"id": "C89", "title": "Error messages come from a fixed list", "statement": "Every line in the list of errors is either about a BIF without ';' or names a BIF and gives one of the documented messages of that BIF: modifier not allowed for every BIF, unknown bif for a name that is no BIF, and for each BIF the messages about its flags, arguments, files and places; no BIF reports a message of another. Only obj, which passes on what the interpreters say, may say anything.", "quantifier": "all templates, schemas, worlds and histories of calls", "why_tests_cant": "the list is the result of the whole evaluation; tests look at single messages, and cannot show that no other message can appear", "anchors": ["src/bif/constants.rs", "src/bif/mod.rs: bif_error", "src/bif/parse_bif_*.rs"]}
{"id": "C90", "title": "What a render depends on", "statement": "A render is a function of the template, the schema and the files, as long as no BIF that uses something else is evaluated: the clock matters only to date, cache, debug, obj and to errors (which tell the time), random numbers only to rand and hash, the creation of files only to cache and obj, the interpreters only to obj. In two environments that differ only in such facilities the whole result - output, status, errors, files written - is the same unless one of these BIFs is evaluated.", "quantifier": "all templates, schemas, worlds, pairs of environments and sets of facilities", "why_tests_cant": "reproducibility is about pairs of runs in arbitrary environments; a test compares a few runs in one", "anchors": ["src/bif/parse_bif_date.rs", "src/bif/parse_bif_cache.rs", "src/bif/parse_bif_rand.rs", "src/bif/parse_bif_hash.rs", "src/bif/parse_bif_obj.rs", "src/bif/mod.rs: bif_error", "src/template.rs: render"]}
{"id": "C91", "title": "Which files a render depends on", "statement": "A render looks only at the files its BIFs name: include, locale and data at the file they name, debug at the configured debug file, cache at entries of the cache directory, obj at the files of the object. Changing, creating or deleting any other files changes nothing a user can observe - output, status, errors - nor the rest of the files afterwards.", "quantifier": "all templates, schemas, environments, sets of files and pairs of worlds that differ only in these files", "why_tests_cant": "it is about pairs of runs with arbitrarily different files, and about every BIF at every depth", "anchors": ["src/bif/parse_bif_include.rs", "src/bif/parse_bif_data.rs", "src/bif/parse_bif_locale.rs", "src/bif/parse_bif_debug.rs", "src/bif/parse_bif_cache.rs", "src/bif/parse_bif_obj.rs", "src/template.rs: render"]}
{"id": "C92", "title": "What a render reports was asked for by a BIF evaluated in it", "statement": "After render or render_once of a template with BIFs: the status is 200 OK without parameter, or an exit or redirect evaluated during the render left exactly that status, or it is the 500 of a text evaluated during the render whose braces do not match (at the position reported). It stopped early only because of an evaluated exit or redirect; its output is the page of a JavaScript redirect only because of an evaluated redirect; a text is moved only because of an evaluated moveto; a variable of the data of the template differs from the beginning only because an evaluated each, for, eval or count left it so; a file differs only because an evaluated cache or obj left it so.", "quantifier": "all templates, schemas, data, file systems and histories of evaluation, at any nesting depth and in any pass", "why_tests_cant": "a universal statement about the cause of every reported effect; tests only sample templates", "anchors": ["src/template.rs: render, render_once", "src/block_parser.rs", "src/bif/parse_bif_exit.rs", "src/bif/parse_bif_redirect.rs", "src/bif/parse_bif_moveto.rs", "src/shared.rs"]}
{"id": "C93", "title": "What a page that ends early answers", "statement": "A page that prints some parts and then reaches an exit or a redirect (outside a cached part) answers with the status given there and its parameter: a line with the status for 400 to 599, that line and the target for an HTTP redirection, the script page for a JavaScript redirection, and otherwise the text printed before the end, plus the text after it if no BIF is left. No BIF after the end is evaluated: data, cache and the number of BIFs stay as at the end.", "quantifier": "all pages of the template language with cached parts, all endings, all parts after the end, all schemas, caches and clocks", "why_tests_cant": "the rest of the page is arbitrary and must not be evaluated; the answer depends on everything before", "anchors": ["src/bif/parse_bif_exit.rs: parse_bif_exit", "src/bif/parse_bif_redirect.rs: parse_bif_redirect", "src/block_parser.rs: parse_with_blocks", "src/template.rs: render"]}
{"id": "C94", "title": "The BIF limit bounds evaluations, not output", "statement": "A {:for; v a..b >> text :} prints exactly one copy of its text for every number of its range (|b-a|+1 of them, up to 2^32) and counts as one BIF, so with any infinite_loop_max_bifs of one or more a short template prints an output whose size only its numbers bound.", "quantifier": "all ranges within 32 bits, all texts without delimiters, all schemas and limits of at least one", "why_tests_cant": "universal over ranges up to four thousand million rounds, which no test can run", "anchors": ["src/bif/parse_bif_for.rs", "src/bif/mod.rs: Bif::new (bif_count)", "src/template.rs: render"]}
{"id": "C95", "title": "clean-cache removes expired cache entries and nothing else", "statement": "Run on a directory whose path has neutral-cache in it, the script removes, from the subdirectories named by three hexadecimal digits, the files named hexadecimal digits - dash - digits whose age is at least that number of seconds (as the shell reads it), then the subdirectories left empty; every other file and directory is left as it was, nothing is new, every entry over at the start is removed (where the system allows it), and the report names what was found over. On any other directory nothing happens and the script fails.", "quantifier": "all directory trees (any names, any depth below), all clocks, all failures of rm and rmdir", "why_tests_cant": "universal over trees, names and ages; a test has one tree", "anchors": ["cache-utils/clean-cache"]}
{"id": "C96", "title": "Cleaning the cache is not noticed by renders", "statement": "The script removes only entries the engine does not use any more, so rendering a page after a run of clean-cache gives the same output, status and data as rendering it without that run.", "quantifier": "all pages with cached parts, schemas, caches, directories given to the script, and times", "why_tests_cant": "relates two programs (the engine and a script) over all pages, cache contents and times", "anchors": ["cache-utils/clean-cache: is_expired", "src/bif/parse_bif_cache.rs: cache_file_expires, get_cache_dir"]}
{"id": "C97", "title": "Cleaning the cache while pages are rendered", "statement": "However runs of the cleaning script and renders that use the same cache entry interleave, call by call, with failures and crashes: what a block prints consists of bytes the renders would print at these positions; a young entry that no run has decided on stays and is served without an error; a removal was decided when the entry was at least as old as its lifetime; a block ends with an error only if a call failed or the script removed something; and the script never makes a block end with an error.", "quantifier": "all numbers of renders and of runs of the script, all texts, lifetimes, sizes of calls, times, and all interleavings with failures and crashes at any point", "why_tests_cant": "a race between processes: the schedules are unbounded and cannot be forced by a test", "anchors": ["src/bif/parse_bif_cache.rs: parse_bif_cache, cache_file_expires, set_cache_dir", "cache-utils/clean-cache: is_expired, the loops"]}
{"id": "C98", "title": "Matching a word takes polynomial time in the text", "statement": "Deciding whether a text matches a word with wild cards takes at most (|word|+1)*(|text|+1)^(number of *)*2^(number of .) calls, so for a given word a polynomial in the length of the text, which may come from a request; without * and . it is linear in the word. (It is not polynomial in the length of the word.)", "quantifier": "all words and texts", "why_tests_cant": "a bound on the running time for all inputs", "anchors": ["src/utils.rs: wildcard_match"]}
{"id": "C99", "title": "The browser script sets up each element once", "statement": "On a page with the browser script, whatever the order of loading, clicks, submissions, answers (with any new content) and failures: an element asks at most once by itself and at most once because it became visible, and never more often than it was clicked on or submitted; every request comes from an element that appeared with the class for it and goes to the address the element gives; and once the page is loaded, every element of the document with one of the four classes, also one that came with an answer, does what its class says: it has asked, or asks once for every click, every submission, or the first time it is visible. The answer replaces the element, or the first element with the id its data-wrap names.", "quantifier": "all pages, all contents of answers, all sequences of events of any length", "why_tests_cant": "the order of events and the contents of answers are not bounded, and scripts in answers set up elements again and again", "anchors": ["src/constants.rs: NEUTRAL_JS (neutral_fev, neutral_obs, neutral_fetch)", "js/neutral.min.js"]}
{"id": "C100", "title": "Every fetch request ends with one event", "statement": "When a request of the browser script is over, exactly one of the events neutralFetchCompleted (it was answered) and neutralFetchError (it failed) was dispatched for it; none was before.", "quantifier": "all pages and all sequences of events of any length", "why_tests_cant": "all orders of answers, failures and changes of the document", "anchors": ["src/constants.rs: NEUTRAL_JS (neutral_fetch, neutral_fetch_form)", "doc/bif-fetch.md: Events"]}
{"id": "C101", "title": "A fetch form sends its successful controls, each once", "statement": "The body of a submission by the browser script has the name and value of every successful control of the form (named, enabled, no button, checked if it can be), once and in order, also if there are files.", "quantifier": "all forms", "why_tests_cant": "all forms: any controls in any order", "anchors": ["src/constants.rs: NEUTRAL_JS (neutral_fetch_form)", "doc/bif-fetch.md"]}
{"id": "C102", "title": "One submission of a fetch form at a time", "statement": "While a submission of a form by the browser script is under way no other submission of it is accepted; when it is over, and its error no longer shown, a form that is still in the document can be submitted again.", "quantifier": "all pages and all sequences of events of any length", "why_tests_cant": "double clicks and orders of answers cannot be enumerated", "anchors": ["src/constants.rs: NEUTRAL_JS (neutral_fetch_form)", "doc/bif-fetch.md: neutral_submit_delay"]}
{"id": "C103", "title": "Counters", "statement": "`{:count; name >> number :}` stores the number under the name and prints nothing; `{:count; name :}` prints the number shown by the name and stores the next one there, so that repeated counts print consecutive numbers; anything that is not a 32 bit number is an error that stores and prints nothing; each use reports that the BIF is deprecated, the counter working all the same; after the largest number the program panics or continues with the smallest, by its build.", "quantifier": "all names, numbers, states and nested codes", "why_tests_cant": "the result depends on the number, the scope level and the build; the boundary is at 2^31", "anchors": ["src/bif/parse_bif_count.rs: parse_bif_count", "src/bif/mod.rs: set_data, get_data", "doc/bif-count.md"]}
{"id": "C104", "title": "How deep evaluations nest", "statement": "Evaluations nest at most one deeper than the number of BIFs that are left of infinite_loop_max_bifs; a template of the language of C77 nests only as deep as it is written with its files and snippets in place, however often its loops run; but a file that includes itself nests as deep as the limit allows before the limit stops it, so the stack must be large enough for infinite_loop_max_bifs nested evaluations.", "quantifier": "all templates, files, states and limits", "why_tests_cant": "the nesting is reached only by inputs that recurse; the limit is a parameter", "anchors": ["src/block_parser.rs: parse_with_blocks", "src/bif/mod.rs: Bif::new", "src/bif/parse_bif_include.rs", "src/macros.rs: new_child_parse"]}
{"id": "C105", "title": "How a BIF is written", "statement": "The order and the repetition of the modifiers of a BIF, the white space around its source and, for BIFs with parameters, the white space around the parameters and around the code do not matter: whatever the data, the position in the template and the contents, both ways of writing give the same output and the same effects; only the line of a recorded error, which quotes the BIF as it was written, differs. (Not claimed of neutral, which prints itself.)", "quantifier": "all BIFs with any names, any modifiers in any order, all sources with the same parts, all states, all evaluations", "why_tests_cant": "Unit tests write each BIF in one or two ways.", "anchors": ["src/bif/mod.rs: Bif::parse, set_modifiers, extract_params_code", "src/utils.rs: get_code_position", "src/template.rs: render, render_once (second pass)", "doc/modifiers.md", "doc/syntax.md"]}
{"id": "C106", "title": "Flags only where they are taken", "statement": "A flag given to a BIF that does not take it is an error and not ignored: array, bool, date, declare, defined, each, else, exit, fetch, filled, flg, for, moveto, param and redirect take none, nor do cache, contains, eval, replace, same and sum; code, include, snippet, allow, data and locale take only their own. After the evaluation of the parameters that give the flags (of none at all for BIFs with arguments) such a BIF does nothing, prints nothing, and one error is recorded.", "quantifier": "all these BIFs, all accepted modifiers, all parameters whatever they evaluate to, all flags, all states", "why_tests_cant": "Unit tests give one wrong flag to a few BIFs.", "anchors": ["src/bif/mod.rs: extract_params_code", "src/bif/parse_bif_*.rs: the checks of self.flags and of {:flg; in the parameters"]}
{"id": "C107", "title": "Arguments are the texts between the delimiters", "statement": "The arguments of same, contains, replace, cache, fetch, sum and join are the texts between the delimiters: the first character of the parameters is the delimiter, and any two characters that occur in none of the arguments can be used alike, with the same output and the same effects. Spaces count. Each argument is evaluated on its own: what it prints, delimiters included, stays in it, so that data cannot add or change arguments.", "quantifier": "all delimiters, all lists of arguments, literal or computed, all data, all states", "why_tests_cant": "Unit tests use a handful of delimiters with harmless data.", "anchors": ["src/bif/mod.rs: extract_args", "src/bif/parse_bif_same.rs", "src/bif/parse_bif_contains.rs", "src/bif/parse_bif_replace.rs", "src/bif/parse_bif_cache.rs", "src/bif/parse_bif_fetch.rs", "src/bif/parse_bif_sum.rs", "src/bif/parse_bif_join.rs"]}
{"id": "C108", "title": "What a call of a PHP object reports", "statement": "A call of a PHP object reports the value its script gives, or the first stage that fails, by its message: the place of the bridge script, writing it, the endpoint (unix: and a path, or a host and port that has an address, with or without tcp://), the connection, the request, the answer, anything the script wrote to its standard error, an answer that is not JSON, and the error the bridge tells; nothing else, and always one of them. A peer that does not speak FastCGI is refused whatever it answers after any records, and when it is an HTTP server the report says so. A script that writes to its standard error fails even if it gives a value; a payload above 65535 bytes fails.", "quantifier": "all calls, endpoints, files, sockets, peers and answers", "why_tests_cant": "universal over the behaviour of the peer and of the system at every stage; tests have one server", "anchors": ["src/bif/exec_php.rs: exec_php, parse_endpoint, read_fastcgi_response, ensure_bridge_script, BRIDGE_SCRIPT"]}
{"id": "C109", "title": "Every PHP object is served by the whole bridge script", "statement": "However many calls of PHP objects run at the same time, in one or several processes, and wherever they fail or crash: the file in the place of the bridge script never has a byte that is not of the script; whenever nobody is in the middle of writing it and nobody stopped in the middle, it is the whole script; what is there is never changed afterwards. (False in full: a call can be served by a script another call is still writing, and a call that stops while writing leaves a cut script that serves every later call.)", "quantifier": "all schedules, sizes of writes, failures and crash points, any number of calls", "why_tests_cant": "a property of all interleavings and crash points", "anchors": ["src/bif/exec_php.rs: ensure_bridge_script, bridge_path_for, exec_php"]}
{"id": "C110", "title": "The modifier ^ changes nothing but white space", "statement": "Giving a BIF the modifier ^, or taking it away, changes nothing of what it does: whatever the BIF, its source, the data and the position, it shows the same output, leaves the same state (data, definitions, status, files, what else and coalesce remember), fails with the same errors and panics in the same cases; the only differences are the white space that is removed before it and the text of the BIF quoted in the report of an error. The exceptions are neutral and, in a cached block, the BIFs kept for the second pass, which show themselves as written, and flg, which refuses ^.", "quantifier": "all BIFs with any name, all modifiers, sources, data, states and nested evaluations", "why_tests_cant": "unit tests compare a few BIFs with and without ^; that no body of any BIF looks at the modifier, in any state, needs a proof over all bodies", "anchors": ["src/bif/mod.rs: set_modifiers, parse", "src/bif/parse_bif_*.rs"]}
{"id": "C111", "title": "The names of variables do not matter", "statement": "Renaming the variables of a template of the language of C77 - in it, in the files it includes and in the snippets it uses - and the entries of the data they name in the same way gives the same output, status and number of evaluated BIFs; entries the template does not read may be anything. In particular the variable of a loop can be given any other name that is not otherwise read, with the same data.", "quantifier": "all templates of the language (any nesting and length), all renamings, all data", "why_tests_cant": "a relation between two programs on all data; unit tests run one program on one set of data", "anchors": ["src/utils.rs: resolve_pointer, get_from_key, is_defined_key", "src/bif/parse_bif_each.rs", "src/bif/parse_bif_for.rs", "src/bif/parse_bif_var.rs", "src/template.rs: render"]}
{"id": "C112", "title": "An option of the configuration matters only to the BIFs that read it", "statement": "Two schemas that differ only in config: if the first render ends and none of the BIFs it evaluates reads an option that is different (filter_all: variables; cache_disable: variables and cache; cache_prefix, cache_dir, cache_on_*: cache; disable_js: fetch; comments: include and the template itself) nor is obj or debug, which see the whole schema, the second render gives the same output, status, errors, number of BIFs and files. In particular raising infinite_loop_max_bifs changes nothing of a page that is rendered within its limit.", "quantifier": "all templates, files, data, environments and pairs of configurations", "why_tests_cant": "unit tests change one option and look at one page; that no other BIF looks at it needs a proof over all bodies and all evaluations", "anchors": ["src/shared.rs: Shared::new", "src/bif/mod.rs: parse", "src/bif/parse_bif_*.rs", "src/template.rs: render"]}
{"id": "C113", "title": "Templates can be refactored by laws", "statement": "In any template of the language of C77, at any place and depth, parts can be exchanged by these laws without changing the output, the status, the errors or the data left, whatever the data: a block in a block is one block; the body of a BIF can be put in a block that shares its definitions; a test need not be repeated or be followed by a test it implies (bool implies filled, each test implies defined); a test and its opposite show nothing; else after a test with visible text is the opposite test, and the two branches can be exchanged at the end of a block; else in else; a comparison of a text with itself is a block; coalesce of one variable, or of a coalesce; an included file or a snippet written where it is used; texts can be cut. Only the number of evaluated BIFs may differ.", "quantifier": "all templates of the language, all places in them, any number of exchanges, all data", "why_tests_cant": "contextual equivalence ranges over all contexts and all data; unit tests compare a few pairs of templates on one set of data", "anchors": ["src/bif/mod.rs: parse", "src/block_parser.rs: parse_with_blocks", "src/bif/parse_bif_code.rs", "src/bif/parse_bif_else.rs", "src/bif/parse_bif_filled.rs", "src/bif/parse_bif_coalesce.rs", "src/bif/parse_bif_include.rs", "src/template.rs: render"]}
{"id": "C114", "title": "How much of a text the scanners read", "statement": "For a text of n bytes: finding the comments takes at most 8n+3 looks at a byte and finding the code of a BIF at most 3n+1, whatever the text; finding the blocks takes at most 4n+4 when every {: of the text is in one of the blocks found, 3n more for each {: that is not closed, and so never more than 2n²+4n+4; the square is really reached by texts with many {: that are not closed.", "quantifier": "all byte strings", "why_tests_cant": "a bound on the work for all inputs; a test measures the running time of a few", "anchors": ["src/utils.rs: extract_blocks, remove_comments, get_code_position", "src/block_parser.rs: parse_with_blocks"]}
{"id": "C115", "title": "In which groups and in which order documents are merged into the schema", "statement": "Two documents merged into the schema of a template one after the other give the same template as their merge, to the last key and its place, unless the first replaces an object by something that is no object and the second makes it an object again (then what was there before is lost, but not if they are merged first); two documents that do not contradict each other give the same schema in either order, up to the order of keys, and only those do for every schema. Not so the ajax header: once the schema has it, a later document that spells it in another way than in small letters does not change it.", "quantifier": "all JSON documents, all templates made by any sequence of calls", "why_tests_cant": "laws about all pairs of documents of any depth; unit tests merge a few", "anchors": ["src/utils.rs: merge_schema, merge_schema_owned, update_schema, update_schema_owned", "src/template.rs: merge_schema_str, merge_schema_path, merge_schema_value, merge_schema_msgpack"]}
{"id": "C116", "title": "Data cannot change the markup of a page", "statement": "A template of the language whose printed variables are filtered and stand only in text, in the text of a title or textarea, or in values of attributes in quotes, whose texts lead from such places to such places, and whose conditional or repeated parts end where they start, renders, for all data, to a page whose markup (the tags, names of attributes, quotes, comments and scripts an HTML reader sees: all characters except those read at places for data that do not leave them) is one of the markups of the template: its texts one after the other, with what is conditional or not, with loops repeated. The page ends at the place the template determines, every tag in it is a tag of a text of the template, and if there is nothing conditional or repeated the markup is the same for all data. In a value without quotes, in the name of a tag or in a script filtered data do change the markup.", "quantifier": "all templates of the language of C77 of any depth accepted by the check, and all data, definitions and sites", "why_tests_cant": "markup depends on how an HTML reader gets to each place of the output for all templates and all data", "anchors": ["src/utils.rs: escape_chars, filter_value", "src/bif/parse_bif_var.rs: parse_bif_var", "src/block_parser.rs: parse", "src/template.rs: render, replacements"]}
{"id": "C117", "title": "What of the definitions and options a page depends on", "statement": "Two renders of the same template of the language with the same data give the same output, status, number of BIFs and final data when the definitions and options they read are the same: the language only if there is trans or lang, the translations only if there is trans, the parameters only if there is param without a body, the local data only if a local:: variable is named, filter_all and the sanitising of delimiters only if a variable is printed without the filter, the hash function only if there is hash, a list of words only if it is named by allow. Everything else may differ: the rest of the inherited definitions, the configuration, other files and snippets, the clock and the random numbers. So a page without trans and lang is the same in every language.", "quantifier": "all templates of the language of C77, all pairs of schemas, environments and worlds in which the template is well-formed", "why_tests_cant": "the pairs of schemas are infinite; a test compares two", "anchors": ["src/block_parser.rs: parse", "src/shared.rs: Shared::new", "src/bif/parse_bif_trans.rs: parse_bif_trans", "src/bif/parse_bif_lang.rs: parse_bif_lang", "src/bif/parse_bif_param.rs: parse_bif_param", "src/bif/parse_bif_allow.rs: parse_bif_allow"]}
{"id": "C118", "title": "Cached parts in cached parts", "statement": "A page with {:cache;} blocks nested to any depth prints, at every request, what its parts mean for the entries and the clock found: a fresh entry stands for its whole part, the parts in it are then neither evaluated nor looked up; a missing or expired one is made anew, from the entries of the inner parts that are fresh at that moment. In every history of requests in which each takes at most d seconds, and parts with the same entry have the same content, a text in cached parts with the lifetimes L1 (outer) to Lk (inner) was evaluated by a request that began at most (L1+d)+...+(Lk+d) seconds before the one that shows it. (The documentation says that the inner text is updated every Lk seconds, and that an inner lifetime not above the outer one has no effect; both are false.)", "quantifier": "all pages of templates of C77 and cached parts nested to any depth, all histories of requests with any data and any clock, all contents of the other files", "why_tests_cant": "a test follows a few requests at chosen times; the bound is about all histories and all depths", "anchors": ["src/bif/parse_bif_cache.rs: parse_bif_cache, get_cache_id, is_expired", "doc/bif-cache.md: Nesting", "src/template.rs: render"]}
{"id": "C119", "title": "Excluded parts of cached parts", "statement": "A page of templates, {:cache;} blocks and {:!cache; code :} blocks nested in any way: what is stored of a cached part has the excluded parts in it as they are written, all of them and in order, never a result of them; and at every request, whether the entries around were fresh or not, each excluded part is evaluated anew, with the site and the data of this request, exactly once, in its place and in order, as the code would be evaluated anywhere else; the texts around, and those of the cached parts in it, are as old as C118 says. So an excluded part shows what it would show if there were no cache.", "quantifier": "all pages of templates of C77, cached parts and excluded parts nested to any depth, all histories of requests with any data and any clock", "why_tests_cant": "a test looks at two requests of one page; that no history of requests ever shows the result of an excluded part of another request is about all histories", "anchors": ["src/bif/parse_bif_cache.rs: parse_bif_cache", "src/template.rs: render", "src/bif/mod.rs: parse", "doc/bif-cache.md: Modifier !"]}
{"id": "C120", "title": "Code that is shown as text stays text", "statement": "When a page has excluded parts, render goes over it a second time to evaluate them. Everything else in the page at that time is text and stays as it is, to the letter, also if it looks like BIFs: code shown with the flag noparse, files included with it, neutral, data printed by join, contents of the cache.", "quantifier": "all templates, schemas, pages and states after the first pass", "why_tests_cant": "what is text in a page and where the excluded parts are ranges over all templates and data; a test has one page", "anchors": ["src/template.rs: render", "src/bif/mod.rs: parse (only, in_only)", "src/block_parser.rs: parse_with_blocks", "doc/bif-code.md: Flag: noparse"]}
{"id": "C121", "title": "The cache is invisible to requests it need not tell apart", "statement": "Requests of kinds such that parts that share a cache entry show the same to all of them, for pages whose templates are steady: they show the same to every request of a kind and leave its data and definitions as they are. In every history of such requests from a cache without entries, in any order, with any lifetimes, any clock, cached parts nested to any depth, and entries removed at any time, each request shows exactly what it shows if the cache is disabled. In particular this holds for repeated requests with the same data, for every template that looks at no BIF before it with else, sets no data (each, for, eval) and sets no definitions outside blocks of their own. For templates that leave traces it does not hold: a loop in a cached part sets its variable only when the entry is made.", "quantifier": "all pages of templates of C77 and cached parts nested to any depth, all histories of requests, clocks, lifetimes and removals of entries", "why_tests_cant": "that no history of requests makes the cache visible is about all histories; a test compares two requests", "anchors": ["src/bif/parse_bif_cache.rs: parse_bif_cache, get_cache_id", "src/bif/parse_bif_each.rs", "src/bif/parse_bif_for.rs", "src/template.rs: render"]}
{"id": "C122", "title": "With excluded parts, every visitor gets the page the cache is not needed for, up to white space", "statement": "A page with cached parts and excluded parts ({:!cache;), nested in any way, whose templates are steady (C121), asked for by requests of kinds such that cached parts that share an entry leave the same to all of them, with the excluded parts still as they are written: so the excluded parts may differ from visitor to visitor. In every history of such requests from a cache without entries, with any lifetimes, clock and removals of entries, each request prints a text that depends on its kind and the page only, and that is what it shows when the cache is disabled, up to white space. The white space can differ: a cached part is trimmed before its excluded parts are evaluated.", "quantifier": "all pages of templates of C77, cached parts and excluded parts nested to any depth, all histories of requests, clocks, lifetimes and removals of entries", "why_tests_cant": "that no history makes a visitor see something else than their own page is about all histories; a test compares two requests", "anchors": ["src/bif/parse_bif_cache.rs: parse_bif_cache, get_cache_id", "src/bif/mod.rs: parse (only, in_only)", "src/template.rs: render", "doc/bif-cache.md: Modifier !"]}
{"id": "C123", "title": "Arguments that are missing or wrong", "statement": "same, contains, replace and sum with fewer than two arguments, join without an array or a separator, cache without a lifetime (when the cache is used), each without array, key or value, for without variable or range, and for, rand and sum with a text where a number is needed, or rand with a range that goes down, report an error that tells which argument is wrong, the first one if there are several. They print nothing, do not evaluate their code, and nothing has happened but the evaluation of the arguments that are given.", "quantifier": "all such BIFs, with any modifiers they take, any arguments, literal or computed, in every state", "why_tests_cant": "that the right argument is blamed and nothing else happens is about all arguments and states; a test has a few", "anchors": ["src/bif/mod.rs: extract_args, bif_error", "src/bif/parse_bif_same.rs", "src/bif/parse_bif_contains.rs", "src/bif/parse_bif_replace.rs", "src/bif/parse_bif_sum.rs", "src/bif/parse_bif_join.rs", "src/bif/parse_bif_each.rs", "src/bif/parse_bif_for.rs", "src/bif/parse_bif_rand.rs", "src/bif/parse_bif_cache.rs"]}
{"id": "C124", "title": "An error changes nothing but the list of errors", "statement": "When a BIF fails with an error, the rest of the page - or of the block it is in - is evaluated exactly as if there were a BIF in its place that shows nothing and reports nothing, such as {:code;:}: the same output, status, data, definitions, flags, number of BIFs and files. Only the list of errors, the flag has_error and the time are different. Only BIFs that can see these may notice: date, cache (the clock), rand, hash (random numbers), obj and debug (which are given the whole schema).", "quantifier": "all templates and nested blocks, all BIFs that fail with a message, all texts before and after them, all states; whole renders", "why_tests_cant": "that no template after an error can notice it is about all templates; a test looks at one", "anchors": ["src/bif/mod.rs: parse (the Err arm), bif_error", "src/block_parser.rs: parse_with_blocks", "src/template.rs: render"]}
{"id": "C125", "title": "Filtered data are displayed as they are", "statement": "A page of texts and variables that are filtered (by the modifier & or by filter_all) or request data (CONTEXT->key, under keys without special characters) is the texts as they are and, for each variable, a text that a browser displays as the text of its value in the schema as given - without outer white space, and with the character references in it read once, as unescape_chars does. Nothing is encoded twice and nothing is left unencoded, whether the value was sanitised before the render or not, is printed with & or not, with filter_all or not. Data without & are displayed exactly as they are. At any place of any template, a variable with the filter prints a text that a browser displays as the text of its value, and in no other way.", "quantifier": "all pages of texts and variables, all data and request data, both settings of filter_all and of the cache; for one variable: all templates and states", "why_tests_cant": "that the two filters - of the request data before the render, and of the variables in it - together encode every character of every datum exactly once is about all data and all pages; tests look at a few characters", "anchors": ["src/bif/parse_bif_var.rs: parse_bif_var", "src/utils.rs: escape_chars, unescape_chars, filter_value, filter_value_keys", "src/template.rs: init_render"]}
{"id": "C126", "title": "What comes after the end of a page does not matter", "statement": "When a BIF ends the page - exit, redirect, a BIF that sets an error status, at the top or nested at any depth in the BIF - nothing after it is evaluated. The state that the rest of the page, or of the block, finds is the one the BIF leaves, whatever the rest is; of the rest nothing is printed, unless it is text without any BIF or comment, which is printed. Two pages that begin alike up to the BIF that ends them, and go on with different BIFs, therefore give the same output, status, data, errors and files. When the page ends in an error status, a redirection or a JavaScript redirection, the same holds for any rest.", "quantifier": "all templates and nested blocks, all BIFs that end the page, all texts after them, all states; whole renders", "why_tests_cant": "that no text after the end can change anything is about all texts; a test looks at one", "anchors": ["src/block_parser.rs: parse_with_blocks", "src/bif/parse_bif_exit.rs", "src/bif/parse_bif_redirect.rs", "src/template.rs: render, ends_render, set_status_code"]}
{"id": "C127", "title": "Where a BIF that prints nothing stands does not matter", "statement": "A BIF that prints nothing - a definition, code to be moved, a flag, a BIF that fails - can be moved over any text without BIFs, with or without comments, that stands before it: at any place of a page, or of a block nested in one, the same is printed and everything afterwards is the same (data, definitions, status, errors, files, number of BIFs). So two pages that differ only in that give the same render. The exceptions are a BIF with the modifier ^, which removes the white space before it, and a BIF that ends the page.", "quantifier": "all templates and nested blocks, all BIFs that print nothing, all texts, all states; whole renders", "why_tests_cant": "that the place does not matter is about all pages, texts and places; a test looks at one", "anchors": ["src/block_parser.rs: parse_with_blocks", "src/template.rs: render"]}
{"id": "C128", "title": "The text of a page has no influence on its BIFs", "statement": "Two pages - or two blocks nested in pages - that have the same BIFs in the same order, with whatever texts and comments around and between them, evaluate their BIFs alike: from the same state they leave the same state (data, definitions, status, errors, files, number of BIFs), and each output is the respective text with the same outputs of the BIFs in their places. So the markup of a page can be edited without any other effect, and a page that ends in an error status or a redirection gives the same answer whatever its text is. Only the passes over the output see the text: code that is moved looks for its tag in it. Text in the code of a BIF (a condition, a comparison, else, coalesce, code, a loop) matters to the rest of the page only in that the code prints something or nothing.", "quantifier": "all pages and nested blocks, all texts and comments, all BIFs, all states; whole renders", "why_tests_cant": "that no text can influence a BIF is about all texts; a test looks at one", "anchors": ["src/block_parser.rs: parse_with_blocks, extract_blocks", "src/template.rs: render, ends_render"]}
{"id": "C129", "title": "Code that is not evaluated does not matter", "statement": "The code of a condition that does not hold (that holds, with !), of a comparison that fails, of an else that is not taken, of an eval whose condition gives nothing, the BIFs of a coalesce after the one that printed, and the body of a loop over nothing have no influence, whatever they are: pages that differ only in such code give the same output, status, data, errors, files and number of BIFs. More generally, at any place of a page or nested block a BIF can be exchanged with another that does the same in the state in which it is reached, and the whole render is the same.", "quantifier": "all templates and nested blocks, all codes that are not reached, all conditions, all states; whole renders", "why_tests_cant": "that code which is not reached cannot leave a trace is about all codes and states; a test has one", "anchors": ["src/bif/parse_bif_bool.rs", "src/bif/parse_bif_filled.rs", "src/bif/parse_bif_defined.rs", "src/bif/parse_bif_array.rs", "src/bif/parse_bif_same.rs", "src/bif/parse_bif_contains.rs", "src/bif/parse_bif_else.rs", "src/bif/parse_bif_eval.rs", "src/bif/parse_bif_coalesce.rs", "src/bif/parse_bif_each.rs", "src/block_parser.rs: parse_with_blocks"]}
{"id": "C130", "title": "Code can be exchanged with code that does the same", "statement": "What a page does is made of what its parts do: at any place of a page or of a nested block a BIF, and in any condition, comparison, else, eval, coalesce, code or loop the code, can be exchanged with another that does what it does in the states in which it is evaluated; the BIF, the block it is in, and the page then do the same - the same output and everything else a render leaves. So a change can be checked where it is made, without looking at the rest of the page.", "quantifier": "all templates and nested blocks, at every depth, all places, all pairs of BIFs and codes, all states; whole renders", "why_tests_cant": "that no place in any template can tell two codes apart that do the same is about all templates; a test has one", "anchors": ["src/block_parser.rs: parse_with_blocks, extract_blocks", "src/bif/mod.rs: parse", "src/bif/parse_bif_code.rs", "src/bif/parse_bif_else.rs", "src/bif/parse_bif_eval.rs", "src/bif/parse_bif_coalesce.rs", "src/bif/parse_bif_each.rs", "src/bif/parse_bif_for.rs", "src/template.rs: render"]}
