# Formal model of neutralts (crate 1.4.3) in Lean 4

## 1. Shape of the model

* `Verif/Model/*` is the program, function by function, with file/line citations.
  * `Str.lean` – Rust string functions used by the crate (`find`, `replace`, `split`, `trim`, integer
    parsing and printing). A string is a list of Unicode scalar values (`List Char`). Positions in
    the model are scalar positions, in the code byte positions of UTF‑8 text; that this makes no difference, and where
    a byte position panics, is proved (C86, `Bytes.lean`).
  * `Value.lean` – `serde_json::Value` with `preserve_order` (objects are insertion ordered association
    lists), `Index`/`IndexMut`, `pointer`.
  * `Utils.lean` – `src/utils.rs` complete.
  * `State.lean` – `Shared`, `BlockInherit`, `Bif` fields, world (files, clock ticks).
  * `Prog.lean` – BIF bodies are written in a free monad `Prog` whose operations are the *effects* the Rust
    code performs (write a data key, set the status, `create_block_schema`, child parse, ...). `run`
    gives their meaning on the state. Invariants of *every* execution are proved by induction over
    `Prog` and over the recursion depth, not per BIF.
  * `Bifs.lean` – one definition per `parse_bif_*.rs`, all of them, and the dispatch table.
  * `Interp.lean` – `Bif::new`, `Bif::parse`, `BlockParser::parse(_with_blocks)`, the child-parse macro.
  * `Template.lean` – `Template` and `Shared::new`, the constructors and setters, `render`, `render_once`,
    `ends_render`, the default schema.
  * `FastCgi.lean` – `exec_php.rs`: request framing, response loop, HTTP body, error mapping.
  * `Cost.lean` – the calls of `wildcard_match`, counted;
  * `Client.lean` – the browser script `NEUTRAL_JS`: elements, listeners, requests, answers, events, the body of a form;
  * `CacheRm.lean` – one cache entry with the files behind its name, renders and runs of the cleaning script, call by call;
  * `Clean.lean` – the script `cache-utils/clean-cache`: its argument, names, ages in the shell's arithmetic, removals and report;
  * `CacheFs.lean` – the cache file of `parse_bif_cache.rs` under concurrent renders, one system call at a time,
    with failures and crashes at any point.
  * `Python.lean` – `exec_python.rs`: the import of a script, the schema attributes and the call, one step at a time, for
    any number of renders in one process (one interpreter).
  * `Bridge.lean` – how the bridge script of PHP objects gets to its place, call by call;
  * `Php.lean`, `Venv.lean` – the PHP side of `{:obj;` and the search for a Python virtual environment.
  * `Bytes.lean` – the functions that address text by bytes (`extract_blocks`, `remove_comments`, `get_code_position`,
    `set_modifiers`, `resolve_pointer`, `find_tag_position`, the insertion of `set_moveto`, `extract_http_body`) a second time, as
    the code writes them: lists of bytes, `while` loops, `str::find`, slices that panic off a character boundary.
* `Verif/Spec/*` – the small specifications theorems refer to, written without the model's helpers (character
  classes, path walks, grammars of templates, evaluation relations, the FastCGI wire format, API histories).
* `Verif/Lemmas/*` – proofs about the model; `Verif/Props/*` – the property theorems (`Cnn_…`), each with a
  concrete non-trivial instance of its hypotheses beside it.
* Recursion: a BIF may parse children. `runBlocks fuel` is structurally recursive in `fuel`; the result `oof`
  ("out of fuel") is *proved unreachable* when `fuel ≥ infinite_loop_max_bifs`, so the model loses nothing
  (this is property C19). The `while` loop of `render` can really diverge (C20): its model takes an iteration
  count, and divergence is "out of iterations for every count".
* Rust panics are an explicit result `panic`.

## 2. Environment (universally quantified)

Everything below is a field of the structure `Env` and every theorem holds for every `Env` unless it states a
hypothesis on it: f64 parsing/printing/addition, `to_lowercase`, JSON text parsing/printing, MD5/SHA‑256,
the clock, random numbers, chrono formatting, `canonicalize`/`parent`, success of directory/file creation,
the Python/PHP executors (`exec_obj`), whether integer overflow is checked, temp and working directory.
The file system inside one render is a function from path strings to entries and is changed only by the
render itself (interference is modelled separately in `CacheFs.lean`).

## 3. Trusted base

* Lean 4.33.0's kernel. No axioms are declared; `AXIOMS.txt` (written by `tools/axioms.sh`) lists, for every
  theorem of the manifest, the axioms it depends on: at most `propext`, `Classical.choice` and `Quot.sound`. Nothing is
  decided by compiled code; `decide +kernel` (concrete witnesses and examples only) is evaluation by the kernel.
* The hand translation from Rust to the model, cited line by line, and the meaning given to Rust's standard library,
  serde_json (with `preserve_order`) and the `regex` replacement of `\s*X`.
* Evidence for the translation (not part of the proofs): `tools/conformance` extracts the template tests of the crate
  (tests written as source/expected pairs in /repo) and evaluates the model on them; 770 of 790 agree, the rest depend on things
  outside the model (Python/PHP objects, the clock, files of the test suite that the extraction does not provide).

Not modelled: `eprintln!` output, timing (`get_time_duration`), MessagePack decoding (a decoded value enters
through the same merge), pyo3's conversions of values, the Python and PHP interpreters (the bridge script and the environments of Python objects are modelled), sockets and time-outs below `read`/`write`, memory limits and
stack depth, non UTF‑8 paths, path aliasing, C/Python bindings, `Value` integers beyond i64/u64 (integers are unbounded
in the model; only their parsing into i32/u64 is range checked).

## 4. Properties and how each is proved

| Id | Property | Modelled by | Proof | Status |
|----|----------|-------------|-------|--------|
@@TABLE@@

Properties that are false of the code are proved false by a concrete witness (suffix `_refuted`) and the strongest true
part is a theorem with suffix `_partial`. What is missing, by property:

@@NOTES@@

## 5. Testing the theorems against wrong programs

`tools/mutate/mutations.py` lists seeded bugs (edits of one definition of the model); `tools/mutate/run.py` applies
each in a scratch copy, elaborates everything the affected properties need and records in `seeded/LOG.jsonl` the property
theorems that no longer hold or depend on a proof that no longer holds. Concrete runs (`decide +kernel`) are switched off there, so
that a bug has to be noticed by a general theorem. Survivors led to the theorems listed as tightened.
`tools/mutate/auto.py` makes mutants systematically (every condition, connective, constant, effect and update of every definition of
the model, sampled) and elaborates every module until one fails; `seeded/AUTO.jsonl` lists which module noticed, and the survivors.

## 6. Findings

Behaviour of the code that contradicts its documentation or the property, with the theorem that proves it:

* Comments: an unclosed comment ending in `:` panics in `remove_comments`, text after an unclosed comment is dropped,
  removal is not idempotent (C16, C43_refuted_comment); `render` removes comments from its own source, so a second
  render can differ (C31_refuted).
* `{:!cache; foo` (never closed) makes `render` loop for ever (C20_refuted); the same text can come from request
  data: `a = {{:;CONTEXT->GET->x:}};` with `x` = `:!cache; <a>` never returns (C20_refuted_request), although
  `filter_value` has escaped the request. C20_exact says exactly when a render runs forever.
* `render` after `render_once` always panics (C32_refuted). The fast path (source without `{:`) keeps the status and errors
  of the previous render (C55_refuted) and accepts a stray `:}`.
* Sanitising keys can make two keys collide and lose an entry (C05). `update_schema` panics on JSON scalars and arrays (C08);
  JSON `null` wipes the schema and the next render panics.
* Names containing `/` or `->` can be set but not read back (C10_refuted); texts such as `Yes/No` are not translated
  (C45_refuted).
* Data is evaluated as template code through adjacent variables, `join`, or `cache_disable` (C26_refuted).
* The check for computed names accepts `{:allow;` anywhere, also in a comment, and rejects only one form (C27_limits).
* `redirect` accepts undocumented types (C41_refuted). A BIF without `;` in `{:!cache;` of a cached block is printed raw
  (C42_refuted).
* `exit`: `{:!exit; {:exit; … :} :}` withdraws the exit (C23_refuted); a BIF in progress completes its effect
  (C23_completes).
* Inclusions made in a nested block are forgotten after it (C52_nested_forgotten).
* A BIF whose name begins with a non-ASCII character panics (C43_refuted); a bad chrono format, a non-string obj
  template, a non-boolean `config.error.show` panic.
* `set_status_code`: codes such as `40404` or `5` wipe the content (C40_custom_refuted).
* Removing marks can create marks (C47_refuted). `else` counts blank output as output (C34_refuted).
* `for` restores its variable as text: an object or array is destroyed, `{:for; CONTEXT …}` destroys the request data
  (C36_refuted).
* The cache key is an unseparated concatenation: a page of one host can be served to another (C38_refuted). Cache files are
  written in place: concurrent renders or a crash leave empty, cut or mixed pages, served until they expire (C39_refuted).
* `moveto` ends an opening tag at the first `>` and matches tag names by prefix (C37_refuted).
* `{:data; {:flg; inline :} >> {} :}` erases all local data (C54_refuted).
* Computed file names are refused only when the name is a bare `{:;x:}`; `{:include; {:&;x:} :}` reads any file without
  `allow` (C66_refuted).
* Python objects: the module is looked up by the stem of the script, so a second script of the same name (or of a standard module)
  never runs (C62_refuted); `sys.path` grows with each call; the schema attributes are shared by concurrent renders
  (C63_refuted).
* PHP objects: a bridge script is written beside the user's script, also with the cache disabled (C61).
* Objects: the JSON of the result is pasted into the template as `{:data;{:flg; inline :}>>…:}`; a result containing `:}` ends
  the BIF and the rest is executed as template code (C64_refuted). A definition file named by the data needs no `allow`
  (C66_obj_refuted). An object whose inline definition contains `>>` only inside a nested BIF is not recognised.
* `encode_tags` encodes also the BIFs of the code, so BIFs with `->`, `>>` or `/` break (C70_refuted).
* Inside a computed file name the text of the name counts as the current file, so `{:include; {:declare; snippet >> * :}{:allow; snippet >> {:;x:} :} :}`
  declares outside of a snippet file (C71_refuted). A static snippet set inside a block stays visible after it (C71_static_leaks).
* Playing a snippet changes the directory of `#` names for all the BIFs that follow in the same block (C72_refuted).
* `date` evaluates a computed format but formats its source (C73_refuted). `count` acts and prints, and then is an error.
* `fetch` substitutes arguments one after the other, so a code with `{endpoint}` (or an argument with `{body}`, ...) is changed (C74_refuted).
* Filter: a loop variable named `CONTEXT` makes the filter trust unfiltered data (C78_premises_needed); a text ending in `{` and white space
  forms a delimiter with filtered data that begin with `:` (C78_premises_needed), and if the data go on with `!cache;` the render does not
  end (C20_refuted).
* `for` gives its variable back as text: a number becomes a string, an object the empty text (C79).
* Virtual environments: only the first Python object of a process can choose one; later objects run with the packages of the
  first environment, although `VIRTUAL_ENV` is changed (C84_ignored, C84_refuted).
* PHP objects: what a script prints becomes part of its result (a function that prints 1 and returns 2 gives 12), and a result
  with the key `__neutralts_obj_error` is an error (C83_premises_needed).  Empty objects reach PHP as empty lists.
* Cache: a cached block in a loop has one entry for all rounds (the loop variables are not in its identification), so every round prints
  the text of the first; `cache_disable` also turns off the sanitising of delimiters, so it is not only a cache switch; the lifetime
  argument is not validated and becomes part of the file name.
* After `exit`, the text between the last evaluated BIF and the next block is dropped but the trailing text is printed.
* An unmatched `:}` sets the status 500 but not the error flag; `set_src_path` on a read error keeps the old source but changes the path.
* `each` inserts null for a missing collection, and `each` over CONTEXT bypasses the filter of CONTEXT variables.
* `join` over arrays prints only the string elements; comments inside comparison arguments change whether the argument is trimmed.
* The text `&` in a template followed by the data `#9224` forms a mark that is removed from the output.
* `exit` and `redirect` in a cached part: at the first request the text printed before is lost (the second pass starts with the exit mark
  set and prints nothing: C23_cached), and at the following requests, when the part comes from the cache, the page goes on after it and the
  exit happens only in the second pass, or never if the page exits somewhere else (C23_cached_refuted).
* `infinite_loop_max_bifs` does not bound the work or the output: `{:for; i -2147483648..2147483647 >> x :}` is one BIF, passes any
  limit, and prints 2^32 characters (`C94_bounded_refuted`); `{:each; …}` has the same freedom over the size of the data.
* `clean-cache` and the engine do not agree on lifetimes: in its last second an entry is used by the engine and removed by the
  script (`-ge` against `>`; `C96_second_refuted`); `0300` is 300 seconds for the engine and octal 192 for the script, a lifetime of
  2^63 or more is negative for the script (removed at once), `+300` or a word is never removed (`C96_lifetimes_refuted`). A file that
  `rm` could not remove is reported as deleted (`C95_report_refuted`).
* `clean-cache` races with renders (C97): an entry removed between the check and the opening makes the block end with an error
  (`Failed to read cache`, the page's status is 500), and prints nothing if the code has no BIF in it; the decision to remove is not
  checked again, so an entry that was just renewed is removed; a directory removed between its creation and the creation of the file
  makes the block end with an error.
* `wildcard_match` takes exponential time in the number of `*` of a word (C98): `n` stars and a text of `n` characters are at least
  `2^n` calls.
* Browser script: a request whose `data-wrap` names no element gets no event (C100_refuted); a form with a file control sends its
  other fields twice, and disabled fields and buttons, too (C101_refuted, C101_twice); a form whose answer goes to another element
  can never be submitted again (C102_refuted); a form whose button has no `type` attribute can be submitted twice at once
  (C102_double_refuted).
* `count`: a name with `->` is read inside the object but stored as a variable whose name contains the arrow, so such a counter never advances (C103_path_stuck); a counter at 2147483647 panics in builds with overflow checks (C103_next).
* Nesting: `infinite_loop_max_bifs` is a bound on the number of BIFs, not on the depth: a file that includes itself is evaluated inside itself as many times as BIFs are left (C104_self; 555000 by default) before the limit panics. Frames and stack size are not modelled; with the usual stacks of threads the stack overflows (an abort that `catch_unwind` does not catch) long before.
* Modifiers in another order (C105_refuted): inside of a cached block `{:^!cache; … :}` and `{:!^cache; … :}` are not the same; the second pass looks for `{:!cache;` on the page and for `!cache` in the name with its modifiers, so `{:!^cache; … :}` is never evaluated and the visitor is shown its source, and `{:^!cache; … :}` is shown unless the page has another `{:!cache;`.
* Flags of data and locale (C106_refuted): a flag they do not know is an error when it is alone, but is ignored beside a flag they know (`{:flg; noparse reqire :}`).
* Arguments of fetch (C107_refuted): they are evaluated before they are divided, so data with the delimiter in them (a `|` in a URL) end the argument and become the next ones (event, wrapper, class, id, name). The other BIFs with arguments divide first.
* `cache`: a lifetime so long that the time of the entry plus the lifetime exceeds 2^64 - 1 is over at once in release builds (C38_longest) and panics where overflow is checked.
* The PHP bridge: `ensure_bridge_script` writes the script in place when there is no file. A call running at the same time can be served by an empty or cut script (C109_refuted), and a call that stops while writing (crash, full disk) leaves a cut script that is never repaired (C109_forever); a script of an older version is never replaced (C109_kept). Writing a temporary file and renaming it would avoid the first two.
* `extract_blocks` reads the rest of the text for each `{:` that is not closed, so a text of 2k bytes with k unclosed `{:` takes at least k·k looks
  (`B.C114_worst`); a template with user text in it that was not escaped can be slow to parse.  `remove_comments` and `get_code_position` are linear.
* A variable whose value is only white space counts as output for `{:else;` when it stands alone, but not inside a block, whose result is trimmed
  (`C113_not_laws`): wrapping it in `{:code; … :}` changes what `else` does.
* The ajax header does not follow "last writer wins": once a schema has it, a later document that spells it `Requested-With-Ajax` or
  `REQUESTED-WITH-AJAX` does not change it, because the spelling in small letters, copied from the first document, is preferred (`C115_ajax`).
* Nested caches (doc/bif-cache.md, Nesting): with an outer lifetime of 100 s and an inner one of 300 s the inner text is not "updated every 300
  seconds": it can be 400 s old, because a new outer entry is made from an inner entry that is almost at its end (`C118_refuted`, and the exact
  bound, the sum of the lifetimes, in `C118_age_partial`).  A nested lifetime not above that of the parent can have an effect, when another page
  made the inner entry (`C118_effect_refuted`).
* An excluded part `{:!cache; … :}` in a block or loop of a cached part does not see the parameters and loop variables of that block or loop
  (`C119_refuted`): `{:cache; /100/ >> {:for; i 1..3 >> {:!cache; [{:;i:}] :} :} :}` gives `[][][]`.  doc/bif-cache.md does not say so.
* The second pass, for the excluded parts, evaluates every BIF that stands after the first excluded part, because `in_only` is set and never
  reset (src/bif/mod.rs:158): code shown with `noparse`, or user data printed by `join`, is evaluated when a `{:!cache; … :}` of a cached part comes
  before it in the page (`C120_refuted`; `C120_exact` is what happens for all pages).  A template injection: the values of `join` are not escaped.
* What a cached part sets (variables of loops, `__eval__`, parameters with `+`) is set only when its entry is made, not when it is found: a page
  that looks at it shows something else at the second request, although nothing in the request is different (C121_needed).
* A cached part is trimmed before its excluded parts are evaluated: `({:cache; /100/ >> A {:!cache; {:;none:} :} :})` gives `(A )`, and `(A)` with
  the cache disabled (C122_spaces).
* FastCGI: payloads above 65535 bytes are refused (C51_refuted); a truncated answer can be accepted (C56_refuted).
@@EXTRA@@
