{
 "claims": [
  {
   "property": "C01",
   "status": "proved",
   "theorems": [
    "Nts.C01_escape_shows",
    "Nts.C01_escape_clean",
    "Nts.C01_escape_plain",
    "Nts.C01_escape_keeps_braces"
   ],
   "note": "all strings"
  },
  {
   "property": "C02",
   "status": "proved",
   "theorems": [
    "Nts.C02_roundtrip",
    "Nts.C02_injective"
   ],
   "note": "all strings"
  },
  {
   "property": "C03",
   "status": "proved",
   "theorems": [
    "Nts.C03_filter_idempotent",
    "Nts.C03_filter_escaped",
    "Nts.C03_filter_value_idempotent"
   ],
   "note": "all strings and values"
  },
  {
   "property": "C04",
   "status": "proved",
   "theorems": [
    "Nts.C04_context_clean",
    "Nts.C04_context_shape",
    "Nts.C04_outside_unchanged"
   ],
   "note": "all schemas and templates"
  },
  {
   "property": "C05",
   "status": "partial",
   "theorems": [
    "Nts.C05_keys_collide",
    "Nts.C05_no_entry_lost_partial",
    "Nts.C05_value",
    "Nts.C05_exact"
   ],
   "note": "The full statement is false: C05_keys_collide exhibits keys that collide after sanitising. Exactly (C05_exact, C05_value): the number of entries is kept iff no two keys denote the same text, and of colliding entries the last is kept."
  },
  {
   "property": "C06",
   "status": "proved",
   "theorems": [
    "Nts.C06_last_writer",
    "Nts.C06_objects_merge",
    "Nts.C06_untouched",
    "Nts.C06_replaced",
    "Nts.C06_key_order",
    "Nts.C06_idempotent",
    "Nts.C06_owned_same"
   ],
   "note": "all values"
  },
  {
   "property": "C07",
   "status": "proved",
   "theorems": [
    "Nts.C07_version_and_ajax",
    "Nts.C07_ajax_value",
    "Nts.C07_rest_unchanged",
    "Nts.C07_owned_same"
   ],
   "note": "all values"
  },
  {
   "property": "C08",
   "status": "partial",
   "theorems": [
    "Nts.C08_scalar_panics",
    "Nts.C08_exact",
    "Nts.C08_objects_never_panic_partial"
   ],
   "note": "The full statement is false: C08_scalar_panics. Exactly (C08_exact): each way of updating a schema panics iff the document is a boolean, number, string or array."
  },
  {
   "property": "C09",
   "status": "proved",
   "theorems": [
    "Nts.C09_path",
    "Nts.C09_plain",
    "Nts.C09_every_name",
    "Nts.C09_array_index"
   ],
   "note": "all schemas and names"
  },
  {
   "property": "C10",
   "status": "partial",
   "theorems": [
    "Nts.C10_param_set",
    "Nts.C10_param_get",
    "Nts.C10_param_partial",
    "Nts.C10_declare_partial",
    "Nts.C10_snippet_set",
    "Nts.C10_snippet_play",
    "Nts.C10_snippet_partial",
    "Nts.C10_refuted"
   ],
   "note": "Parameters, snippets and declarations set under a name without separators are read back; names with / or -> can be set but not read (C10_refuted). The flag static of snippets: see C71."
  },
  {
   "property": "C11",
   "status": "proved",
   "theorems": [
    "Nts.C11_filled",
    "Nts.C11_defined",
    "Nts.C11_array",
    "Nts.C11_bool",
    "Nts.C11_implications"
   ],
   "note": "All schemas and names; the negated forms as seen by a template: C33."
  },
  {
   "property": "C12",
   "status": "proved",
   "theorems": [
    "Nts.C12_wildcard",
    "Nts.C12_literal"
   ],
   "note": "all texts and patterns"
  },
  {
   "property": "C13",
   "status": "proved",
   "theorems": [
    "Nts.C13_allow",
    "Nts.C13_exact",
    "Nts.C13_replace",
    "Nts.C13_undeclared"
   ],
   "note": "C13_exact / C13_replace / C13_undeclared: exact output of allow and !allow for all declarations, words, flags, evaluated texts and states"
  },
  {
   "property": "C14",
   "status": "proved",
   "theorems": [
    "Nts.C14_blocks",
    "Nts.C14_error"
   ],
   "note": "all sources"
  },
  {
   "property": "C15",
   "status": "proved",
   "theorems": [
    "Nts.C15_complete"
   ],
   "note": "all well-formed templates, any depth"
  },
  {
   "property": "C16",
   "status": "partial",
   "theorems": [
    "Nts.C16_removes",
    "Nts.C16_unchanged",
    "Nts.C16_no_panic_partial",
    "Nts.C16_panics",
    "Nts.C16_loses_text",
    "Nts.C16_not_idempotent",
    "Nts.C16_disagrees",
    "Nts.C16_render",
    "Nts.C16_exact",
    "Nts.C16_panics_exact"
   ],
   "note": "Proved for all sources whose comments are closed (C16_removes, C16_render). 'Never panics' is false: C16_panics; unclosed comments also lose text (C16_loses_text). Exactly, for every text: C16_exact (the result as a declarative relation, comments counted by occurrences of their delimiters) and C16_panics_exact (it panics iff the text ends with a colon and some comment is never closed)."
  },
  {
   "property": "C17",
   "status": "proved",
   "theorems": [
    "Nts.C17_inert",
    "Nts.C17_context"
   ],
   "note": "all comments, all templates around them"
  },
  {
   "property": "C18",
   "status": "proved",
   "theorems": [
    "Nts.C18_first",
    "Nts.C18_none",
    "Nts.C18_sound",
    "Nts.C18_split"
   ],
   "note": "all sources"
  },
  {
   "property": "C19",
   "status": "proved",
   "theorems": [
    "Nts.C19_terminates",
    "Nts.C19_budget",
    "Nts.C19_each_counts",
    "Nts.C19_render",
    "Nts.C19_depth",
    "Nts.C19_where"
   ],
   "note": "all templates, any nesting; fuel is shown sufficient; C19_where: the budget panic happens exactly when one BIF more than the schema allows is evaluated, in any pass, at any depth"
  },
  {
   "property": "C20",
   "status": "partial",
   "theorems": [
    "Nts.C20_exact",
    "Nts.C20_exact_once",
    "Nts.C20_refuted_request",
    "Nts.C20_refuted",
    "Nts.C20_stuck_partial"
   ],
   "note": "The full statement is false: C20_refuted ({:!cache; foo never finishes, for every environment and schema) and C20_refuted_request (a request parameter :!cache; printed after a literal brace). Exactly: C20_exact and C20_exact_once: render runs forever iff an intermediate output contains {:!cache; and no closing delimiter at all."
  },
  {
   "property": "C21",
   "status": "proved",
   "theorems": [
    "Nts.C21_blocks",
    "Nts.C21_render",
    "Nts.C21_render_once"
   ],
   "note": "all templates"
  },
  {
   "property": "C22",
   "status": "proved",
   "theorems": [
    "Nts.C22_errors_grow",
    "Nts.C22_has_error"
   ],
   "note": "all API histories"
  },
  {
   "property": "C23",
   "status": "partial",
   "theorems": [
    "Nts.C23_cached",
    "Nts.C23_cached_refuted",
    "Nts.C23_block",
    "Nts.C23_partial",
    "Nts.C23_cache",
    "Nts.C23_effect",
    "Nts.C23_refuted",
    "Nts.C23_completes"
   ],
   "note": "False as stated: {:!exit;…:} withdraws an exit made inside it (C23_refuted), and a built-in in progress when exit happens completes its own effect (C23_completes). Proved: from any moment, at any depth, with the exit mark set and no !exit in progress, the mark stays and no further built-in is executed."
  },
  {
   "property": "C24",
   "status": "proved",
   "theorems": [
    "Nts.C24_block",
    "Nts.C24_met",
    "Nts.C24_start",
    "Nts.C24_passes",
    "Nts.C24_scope_modifier"
   ],
   "note": "Proved for every BIF text, environment and state at any nesting level, for all sections other than the snippets (which the property does not list; a static snippet does leak). C24_block: a nested block of any content leaves the definitions of all enclosing blocks; C24_met/C24_start: the level hypothesis holds at every BIF evaluated in a render."
  },
  {
   "property": "C25",
   "status": "proved",
   "theorems": [
    "Nts.C25_no_delimiters",
    "Nts.C25_default",
    "Nts.C25_value",
    "Nts.C25_filtered"
   ],
   "note": "all values, names (also computed) and modifiers; the filter part assumes that printed floats have no special characters"
  },
  {
   "property": "C26",
   "status": "partial",
   "theorems": [
    "Nts.C26_partial",
    "Nts.C26_refuted"
   ],
   "note": "The full statement is false: C26_refuted (join, adjacent variables, cache_disable). Proved for all templates of text and variables that do not touch, any data, any modifiers but +; C77 gives the output of the whole language of nodes as a function of data that is never evaluated."
  },
  {
   "property": "C27",
   "status": "proved",
   "theorems": [
    "Nts.C27_refused",
    "Nts.C27_insecure",
    "Nts.C27_exact",
    "Nts.C27_limits"
   ],
   "note": "C27_exact: every computed name is refused (a text from {:; to :} comments apart, without allow), accepted, or panics (unclosed comment); C27_refused, C27_insecure: all refused names; C27_limits shows how narrow the rejected form is"
  },
  {
   "property": "C28",
   "status": "proved",
   "theorems": [
    "Nts.C28_plain",
    "Nts.C28_comments",
    "Nts.C28_comments_kept"
   ],
   "note": "all templates and worlds"
  },
  {
   "property": "C29",
   "status": "proved",
   "theorems": [
    "Nts.C29_error",
    "Nts.C29_unmatched"
   ],
   "note": "all sources that fail to decompose (C29_error) and, independently of the scanner, all well-formed prefixes followed by a stray :}"
  },
  {
   "property": "C30",
   "status": "proved",
   "theorems": [
    "Nts.C30_same"
   ],
   "note": "all templates, schemas, worlds"
  },
  {
   "property": "C31",
   "status": "partial",
   "theorems": [
    "Nts.C31_schema_kept",
    "Nts.C31_repeat_partial",
    "Nts.C31_repeat_plain",
    "Nts.C31_second",
    "Nts.C31_kept",
    "Nts.C31_refuted",
    "Nts.C31_refuted_error"
   ],
   "note": "The full statement is false: C31_refuted, C31_refuted_error. Exactly what a second render does, for every template: C31_second (a fresh template with the comment-free source); C31_kept when comments are kept; C31_repeat_partial when no comment start is left after removing comments."
  },
  {
   "property": "C32",
   "status": "partial",
   "theorems": [
    "Nts.C32_refuted",
    "Nts.C32_plain_partial"
   ],
   "note": "The full statement is false: C32_refuted holds for every template (render after render_once always panics). Proved for the fast path."
  },
  {
   "property": "C33",
   "status": "proved",
   "theorems": [
    "Nts.C33_condition",
    "Nts.C33_complement",
    "Nts.C33_compare"
   ],
   "note": "all names, all sources, all states in which the condition is plain (no nested block); nested conditions through the relation nested"
  },
  {
   "property": "C34",
   "status": "partial",
   "theorems": [
    "Nts.C34_else",
    "Nts.C34_after_output",
    "Nts.C34_after_nothing_partial",
    "Nts.C34_refuted"
   ],
   "note": "else after a BIF that printed a non-blank text shows nothing, after one that printed nothing shows its code; C34_refuted: a BIF that printed only blanks counts as output."
  },
  {
   "property": "C35",
   "status": "proved",
   "theorems": [
    "Nts.C35_block",
    "Nts.C35_rest_skipped",
    "Nts.C35_stops",
    "Nts.C35_output_remembered",
    "Nts.C35_coalesce"
   ],
   "note": "all alternatives and states"
  },
  {
   "property": "C36",
   "status": "partial",
   "theorems": [
    "Nts.C36_each",
    "Nts.C36_for_partial",
    "Nts.C36_refuted"
   ],
   "note": "each is proved in full (a variable that did not exist before is null afterwards); for restores the text of its variable, exact for texts, an object or array is lost (C36_refuted)."
  },
  {
   "property": "C37",
   "status": "partial",
   "theorems": [
    "Nts.C37_render_partial",
    "Nts.C37_distinct",
    "Nts.C37_bif",
    "Nts.C37_refuted"
   ],
   "note": "C37_bif (the BIF makes its code pending, replacing an equal one), C37_distinct (no two pending codes equal up to spaces and newlines), C37_render_partial (every render inserts each pending code once, at its target, and changes nothing else). Partial because an opening tag is taken to end at the first '>' and recognised by its first characters: C37_refuted."
  },
  {
   "property": "C38",
   "status": "partial",
   "theorems": [
    "Nts.C38_hit",
    "Nts.C38_miss",
    "Nts.C38_store_fails",
    "Nts.C38_roundtrip",
    "Nts.C38_separate_partial",
    "Nts.C38_exact",
    "Nts.C38_longest",
    "Nts.C38_refuted",
    "Nts.C38_shared"
   ],
   "note": "C38_hit, C38_miss, C38_store_fails and C38_roundtrip are for every request, state, code and lifetime. The separation of requests is false as stated: the identification is an unseparated concatenation (C38_refuted shows a page of one host served to another; C38_shared is the general form; C38_exact says exactly which requests share an entry). C38_separate_partial: requests that differ in exactly one component, or in lifetime, never share an entry, up to collisions of the hash. Overflow of mtime + lifetime (a panic in checked builds) is excluded by a hypothesis."
  },
  {
   "property": "C39",
   "status": "partial",
   "theorems": [
    "Nts.Fs.C39_refuted",
    "Nts.Fs.C39_origin_partial",
    "Nts.Fs.C39_stays",
    "Nts.Fs.C39_locked_partial",
    "Nts.Fs.C39_poisoned"
   ],
   "note": "Model/CacheFs.lean: one entry, any number of renders, one system call at a time, failures and crashes anywhere. False as stated: C39_refuted (empty, cut, NUL-filled and mixed outputs; two writers that both succeed leave a text nobody wrote), C39_stays/C39_poisoned (a broken entry is served until it expires). Proved: C39_origin_partial (without any assumption every byte comes from some render's text at this position or was never written), C39_locked_partial (with mutual exclusion and no failure during writing every output is a complete text)."
  },
  {
   "property": "C40",
   "status": "partial",
   "theorems": [
    "Nts.C40_three_digits",
    "Nts.C40_longer",
    "Nts.C40_custom_partial",
    "Nts.C40_custom_refuted"
   ],
   "note": "Three-digit codes: all states. 'Custom codes above 999 keep the content' is false (C40_custom_refuted); C40_longer says exactly when a longer code replaces the content; C40_custom_partial: codes of any other shape not starting with 4 or 5."
  },
  {
   "property": "C41",
   "status": "partial",
   "theorems": [
    "Nts.C41_accepted",
    "Nts.C41_rejected_partial",
    "Nts.C41_rejected_state",
    "Nts.C41_refuted"
   ],
   "note": "The full statement is false: C41_refuted (an undocumented type is accepted when the code contains both js:reload:self and js:reload:top). Proved: all documented redirections are accepted with their exact effect, everything else outside that corner is rejected."
  },
  {
   "property": "C42",
   "status": "partial",
   "theorems": [
    "Nts.C42_modifier",
    "Nts.C42_unknown",
    "Nts.C42_malformed_partial",
    "Nts.C42_recorded",
    "Nts.C42_refuted"
   ],
   "note": "The full statement is false: C42_refuted (a BIF without ; inside {:!cache; of a cached block is printed). Proved: unknown names and modifiers in all cases; the missing ; in the main pass."
  },
  {
   "property": "C43",
   "status": "partial",
   "theorems": [
    "Nts.C43_partial",
    "Nts.C43_once_partial",
    "Nts.C43_refuted",
    "Nts.C43_refuted_comment",
    "Nts.C43_default",
    "Nts.C43_where",
    "Nts.C43_where_once",
    "Nts.C43_otherwise"
   ],
   "note": "False as stated: C43_refuted (a BIF whose name starts with a non-ASCII character) and C43_refuted_comment (an unclosed comment ending with ':') panic. Proved: for every template, world and iteration bound, with a schema of the documented shape (SaneSchema, met by the default schema: C43_default) and an obliging environment, the only panics are the BIF budget and those text slices; C43_where (iff, any environment and schema): the text slices happen exactly when comments are removed from a template that ends with ':' and has an unclosed comment, or when a BIF is evaluated, in any pass and at any depth, whose name begins with a non-ASCII character (modifiers apart), or which looks at such a text in a computed name or in an included file; C43_otherwise: nothing else panics."
  },
  {
   "property": "C44",
   "status": "proved",
   "theorems": [
    "Nts.C44_include",
    "Nts.C44_code",
    "Nts.C44_code_written"
   ],
   "note": "all flags, files and texts; for code (C44_code, C44_code_written) and include (C44_include)"
  },
  {
   "property": "C45",
   "status": "partial",
   "theorems": [
    "Nts.C45_translated_partial",
    "Nts.C45_fallback_partial",
    "Nts.C45_no_language",
    "Nts.C45_path",
    "Nts.C45_refuted"
   ],
   "note": "False as stated: a text with '/' is looked up as a path (C45_refuted). Proved for texts that are plain names; C45_path says exactly what texts with separators print."
  },
  {
   "property": "C46",
   "status": "proved",
   "theorems": [
    "Nts.C46_once",
    "Nts.C46_marked",
    "Nts.C46_marked_bif",
    "Nts.C46_disabled"
   ],
   "note": "all scripts, templates, schemas: an evaluation that depends on the script marks it as emitted (C46_marked, C46_marked_bif), nothing evaluated afterwards depends on it (C46_once), nor a render with disable_js (C46_disabled)"
  },
  {
   "property": "C47",
   "status": "partial",
   "theorems": [
    "Nts.C47_replacements",
    "Nts.C47_unchanged",
    "Nts.C47_no_marks_partial",
    "Nts.C47_refuted"
   ],
   "note": "'No mark is left' is false (C47_refuted: removing a mark can create one); proved for texts whose only & are those of marks. The other parts: all texts."
  },
  {
   "property": "C48",
   "status": "proved",
   "theorems": [
    "Nts.C48_rand",
    "Nts.C48_rand_default",
    "Nts.C48_rand_rejected",
    "Nts.C48_sum",
    "Nts.C48_sum_rejected",
    "Nts.C48_lang"
   ],
   "note": "rand, sum and lang, accepted and rejected arguments"
  },
  {
   "property": "C49",
   "status": "proved",
   "theorems": [
    "Nts.C49_exact",
    "Nts.C49_replace",
    "Nts.C49_unchanged",
    "Nts.C49_bif"
   ],
   "note": "all texts and non-empty patterns"
  },
  {
   "property": "C50",
   "status": "proved",
   "theorems": [
    "Nts.C50_length",
    "Nts.C50_pairs_unique",
    "Nts.C50_stream_unique",
    "Nts.C50_request",
    "Nts.C50_response",
    "Nts.C50_response_closed",
    "Nts.C50_body",
    "Nts.C50_body_other",
    "Nts.C50_call"
   ],
   "note": "Requests, responses and whole calls of the FastCGI client, against an independent relational specification of the FastCGI wire format (Spec/FastCgi.lean) shown to be uniquely decodable."
  },
  {
   "property": "C51",
   "status": "partial",
   "theorems": [
    "Nts.C51_refuted",
    "Nts.C51_partial"
   ],
   "note": "False as stated: C51_refuted proves that every payload above 65535 bytes is refused, on every connection. C51_partial: all smaller ones are sent."
  },
  {
   "property": "C52",
   "status": "proved",
   "theorems": [
    "Nts.C52_skipped",
    "Nts.C52_remembered",
    "Nts.C52_kept",
    "Nts.C52_inherited",
    "Nts.C52_nested_forgotten"
   ],
   "note": "skipped, remembered, kept for the rest of the scope and inherited by every nested block; inclusions made in a nested block are forgotten after it (C52_nested_forgotten), which is what 'per scope' says"
  },
  {
   "property": "C53",
   "status": "proved",
   "theorems": [
    "Nts.C53_during",
    "Nts.C53_status_text"
   ],
   "note": "all API histories"
  },
  {
   "property": "C54",
   "status": "partial",
   "theorems": [
    "Nts.C54_inline_partial",
    "Nts.C54_wiped",
    "Nts.C54_file_partial",
    "Nts.C54_refuted"
   ],
   "note": "Proved for documents with the key data, inline and from files; a document without it erases all local data (C54_wiped, C54_refuted)."
  },
  {
   "property": "C55",
   "status": "partial",
   "theorems": [
    "Nts.C55_fresh_partial",
    "Nts.C55_refuted"
   ],
   "note": "The full statement is false: C55_refuted. Proved for every source with a {:."
  },
  {
   "property": "C56",
   "status": "partial",
   "theorems": [
    "Nts.C56_partial",
    "Nts.C56_exact",
    "Nts.C56_timeout_partial",
    "Nts.C56_refuted"
   ],
   "note": "False as stated: C56_refuted (answer 123 received as 12). Exactly: C56_exact (for every cut, an answer that is cut short is accepted as complete whenever the whole records received carry some output). C56_partial, C56_timeout_partial: never anything but the output of whole leading records; reads that fail other than by end of file are always reported."
  },
  {
   "property": "C57",
   "status": "proved",
   "theorems": [
    "Nts.C57_inline",
    "Nts.C57_file"
   ],
   "note": "Inline and from files, including files that contain BIFs."
  },
  {
   "property": "C58",
   "status": "proved",
   "theorems": [
    "Nts.C58_shown",
    "Nts.C58_plain",
    "Nts.C58_hidden",
    "Nts.C58_flags"
   ],
   "note": "C58_shown/C58_plain/C58_hidden/C58_flags cover every outcome of the condition, for every nested evaluation."
  },
  {
   "property": "C59",
   "status": "partial",
   "theorems": [
    "Nts.C59_join_partial",
    "Nts.C59_exact",
    "Nts.C59_refuted"
   ],
   "note": "C59_join_partial: objects, arrays of texts, and keys of both; C59_exact: what is printed for every name without ~, whatever it leads to (elements of arrays that are not texts are printed as empty texts; nothing for a missing name or something without elements). C59_refuted: the code prints numbers and booleans inside arrays as empty texts, so the full claim is false of it."
  },
  {
   "property": "C60",
   "status": "proved",
   "theorems": [
    "Nts.C60_last_document",
    "Nts.C60_default",
    "Nts.C60_same_merge",
    "Nts.C60_from_file",
    "Nts.C60_rejected",
    "Nts.C60_messages",
    "Nts.C60_source"
   ],
   "note": "Statements over the inductive histories Built; documents are well-formed JSON values (no duplicate keys); header entries and the version stamp are excluded by Ordinary (C07 states what happens to them)."
  },
  {
   "property": "C61",
   "status": "proved",
   "theorems": [
    "Nts.C61_blocks",
    "Nts.C61_render",
    "Nts.C61_render_once",
    "Nts.C61_kept"
   ],
   "note": "For every program: C61_blocks for any evaluation and any state, C61_render and C61_render_once for whole renders. The bridge script (Spec.BridgeFile) is written beside a PHP script also when the cache is disabled. Files touched by external scripts (PHP, Python) are outside the model."
  },
  {
   "property": "C62",
   "status": "partial",
   "theorems": [
    "Nts.Py.C62_own_partial",
    "Nts.Py.C62_runs",
    "Nts.Py.C62_cached",
    "Nts.Py.C62_defined",
    "Nts.Py.C62_errors",
    "Nts.Py.C62_refuted"
   ],
   "note": "Proved for every history and schedule when no other file of the path or earlier module has the stem of the script (C62_own_partial); C62_defined: only functions the file defines run, under every schedule; C62_errors: missing file or function; C62_runs: with a fresh name the script's own function runs; C62_cached: a loaded module is used without looking at the file. Missing: scripts with equal stems, for which the claim is false (C62_refuted: two scripts of the same name, the first one runs twice)."
  },
  {
   "property": "C63",
   "status": "partial",
   "theorems": [
    "Nts.Py.C63_sequential",
    "Nts.Py.C63_concurrent_partial",
    "Nts.Py.C63_refuted"
   ],
   "note": "C63_sequential: calls one after the other, any interpreter state. C63_concurrent_partial: any schedule of any number of renders with different module names. Missing: concurrent calls of the same script, for which the claim is false (C63_refuted)."
  },
  {
   "property": "C64",
   "status": "partial",
   "theorems": [
    "Nts.C64_call",
    "Nts.C64_invalid",
    "Nts.C64_missing",
    "Nts.C64_no_definition",
    "Nts.C64_data_partial",
    "Nts.C64_refuted"
   ],
   "note": "C64_call: any well-formed object, inline or in a file, Python or PHP (the executors are arbitrary functions; Python and FastCGI are modelled separately, C50, C51, C56, C62, C63). C64_invalid, C64_missing, C64_no_definition: the errors. C64_data_partial: the result is visible as local data when its JSON text has balanced delimiters and the JSON parser reads back what it printed. Missing: results with unbalanced delimiters, for which the claim is false (C64_refuted: the result is executed as template code)."
  },
  {
   "property": "C65",
   "status": "proved",
   "theorems": [
    "Nts.C65_disabled",
    "Nts.C65_test",
    "Nts.C65_shows",
    "Nts.C65_version"
   ],
   "note": "proved for every state: disabled, test, enabled with a key, enabled without a key (version). C65_disabled covers all ways of being disabled; the cases are exhaustive (debugState_total)."
  },
  {
   "property": "C66",
   "status": "partial",
   "theorems": [
    "Nts.C66_include_partial",
    "Nts.C66_data_partial",
    "Nts.C66_locale_partial",
    "Nts.C66_refuted",
    "Nts.C66_obj_refuted"
   ],
   "note": "Proved for names that are, comments apart, a text from {:; to :} without allow (C66_*_partial, Spec.Refused; the specification of comments is that of C16). Every other computed name is accepted (Spec.Accepted, used in C52, C67: the file it evaluates to is the one looked for). Missing: those, for which the claim is false; C66_refuted: {:include; {:&;x:} :} reads the file without allow; C66_obj_refuted: obj evaluates even a bare variable."
  },
  {
   "property": "C67",
   "status": "proved",
   "theorems": [
    "Nts.C67_include",
    "Nts.C67_data",
    "Nts.C67_locale"
   ],
   "note": "Every file name (literal or computed and accepted, Spec.Accepted), any flags accepted by the BIF; FileName is the specification of how the path is found."
  },
  {
   "property": "C68",
   "status": "proved",
   "theorems": [
    "Nts.C68_blocks",
    "Nts.C68_nested",
    "Nts.C68_scope",
    "Nts.C68_append",
    "Nts.C68_render",
    "Nts.C68_split"
   ],
   "note": "Spec.Produces is a big-step relation over the blocks of a template, written without the interpreter's loop; C68_blocks is an equivalence. C68_nested, C68_scope: nested evaluation and what it forgets. C68_append: concatenation. C68_render: the whole render without !cache pass or redirection."
  },
  {
   "property": "C69",
   "status": "proved",
   "theorems": [
    "Nts.C69_output",
    "Nts.C69_trimmed",
    "Nts.C69_upline"
   ],
   "note": "C69_output, C69_upline: for every BIF; C69_trimmed: trimming characterised declaratively"
  },
  {
   "property": "C70",
   "status": "partial",
   "theorems": [
    "Nts.C70_code",
    "Nts.C70_flg",
    "Nts.C70_noparse",
    "Nts.C70_encode_bifs",
    "Nts.C70_encode_tags_after",
    "Nts.C70_encode_tags",
    "Nts.C70_encode_tags_partial",
    "Nts.C70_unknown_flag",
    "Nts.C70_refuted"
   ],
   "note": "everything is proved except that encode_tags leaves BIFs alone: that is false (C70_refuted); C70_encode_tags_partial covers BIFs without HTML characters"
  },
  {
   "property": "C71",
   "status": "partial",
   "theorems": [
    "Nts.C71_param",
    "Nts.C71_declare_partial",
    "Nts.C71_snippet_partial",
    "Nts.C71_static",
    "Nts.C71_refuted",
    "Nts.C71_static_leaks"
   ],
   "note": "param: full. snippet and declare: proved for the file the evaluation is in; inside a computed file name the text of the name counts as that file (C71_refuted). Where they are accepted, C10 says what they define."
  },
  {
   "property": "C72",
   "status": "partial",
   "theorems": [
    "Nts.C72_include",
    "Nts.C72_noparse",
    "Nts.C72_directory_partial",
    "Nts.C72_snippet_exact",
    "Nts.C72_main",
    "Nts.C72_refuted"
   ],
   "note": "include and noparse exact for all file systems; the directory is restored by every BIF except snippet (C72_directory_partial); C72_snippet_exact: what it is after a snippet (C72_refuted: not what the claim says)"
  },
  {
   "property": "C73",
   "status": "partial",
   "theorems": [
    "Nts.C73_hash",
    "Nts.C73_hash_random",
    "Nts.C73_date_partial",
    "Nts.C73_date_exact",
    "Nts.C73_neutral",
    "Nts.C73_count",
    "Nts.C73_refuted"
   ],
   "note": "hash and neutral exact; date: C73_date_partial for literal formats, C73_date_exact for every source (C73_refuted: the claim is false for computed formats, whose source is used as format); count always an error"
  },
  {
   "property": "C74",
   "status": "partial",
   "theorems": [
    "Nts.C74_element_partial",
    "Nts.C74_no_address",
    "Nts.C74_refuted"
   ],
   "note": "exact element for arguments and codes without names of slots in braces (C74_refuted: false otherwise); missing url is an error"
  },
  {
   "property": "C75",
   "status": "proved",
   "theorems": [
    "Nts.C75_off",
    "Nts.C75_excluded",
    "Nts.C75_evaluated",
    "Nts.C75_stored",
    "Nts.C75_ends"
   ],
   "note": "off, excluded inside and outside: exact for all settings and states; C75_ends: nesting only, also after failures"
  },
  {
   "property": "C76",
   "status": "proved",
   "theorems": [
    "Nts.C76_same",
    "Nts.C76_status",
    "Nts.C76_data",
    "Nts.C76_moveto",
    "Nts.C76_files"
   ],
   "note": "Spec.without evaluates as the model does but gives up when an evaluated text contains one of the excluded BIFs; C76_same: where it succeeds it is the model's evaluation."
  },
  {
   "property": "C77",
   "status": "proved",
   "theorems": [
    "Nts.C77_means",
    "Nts.C77_render"
   ],
   "note": "denotational semantics of a template language; C77_means for blocks in any state, C77_render for whole renders. Texts and names are required not to contain or form delimiters (TextOk, NameOk); files named literally (template files must be texts of the language, data and locale files must be parsable JSON); snippets defined in the schema (C10 for those set by a file)."
  },
  {
   "property": "C78",
   "status": "proved",
   "theorems": [
    "Nts.C78_means",
    "Nts.C78_render",
    "Nts.C78_premises_needed"
   ],
   "note": "premises: no replace in the template (it can cut entities), no join (it prints unfiltered), no translations read from files, hashes clean (they are hexadecimal); no loop variable is named CONTEXT; the test of an eval+ is filtered too; no text or translation ends in { (up to white space) or has {: in it, printed floating point numbers have no special characters, initial parameters clean; C78_premises_needed shows that the premises on CONTEXT and on { are needed"
  },
  {
   "property": "C79",
   "status": "proved",
   "theorems": [
    "Nts.C79_render"
   ],
   "note": "the second clause of C79_render says exactly what happens to the variable of a for"
  },
  {
   "property": "C80",
   "status": "proved",
   "theorems": [
    "Nts.C80_render"
   ],
   "note": "names must not begin with a separator (then they name the whole data)"
  },
  {
   "property": "C81",
   "status": "proved",
   "theorems": [
    "Nts.C81_render"
   ],
   "note": "both templates must be templates of the language (texts and arguments of comparisons without / etc.)"
  },
  {
   "property": "C82",
   "status": "proved",
   "theorems": [
    "Nts.C82_start",
    "Nts.C82_settings",
    "Nts.C82_render"
   ],
   "note": "C82_start, C82_settings for all templates; C82_render for the language of C77"
  },
  {
   "property": "C83",
   "status": "proved",
   "theorems": [
    "Nts.C83_value",
    "Nts.C83_errors",
    "Nts.C83_other",
    "Nts.C83_premises_needed"
   ],
   "note": "C83_value and C83_errors for every script and call; the premises (silent script, no error object) are shown to be needed"
  },
  {
   "property": "C84",
   "status": "partial",
   "theorems": [
    "Nts.Py.C84_missing",
    "Nts.Py.C84_first_partial",
    "Nts.Py.C84_ignored",
    "Nts.Py.C84_path",
    "Nts.Py.C84_refuted"
   ],
   "note": "C84_missing and C84_path for all histories; the first object of a process runs in its environment; for later objects the claim is false of the code: C84_ignored, C84_refuted"
  },
  {
   "property": "C85",
   "status": "proved",
   "theorems": [
    "Nts.C85_render",
    "Nts.C85_transparent",
    "Nts.C85_history",
    "Nts.C85_again",
    "Nts.C85_requests"
   ],
   "note": "C85_render: the whole render is the meaning of the page, including the files; C85_history/C85_requests: induction over all histories; C85_again, C85_transparent; the cached parts are at the top level of the page (nested ones: C38)"
  },
  {
   "property": "C86",
   "status": "proved",
   "theorems": [
    "Nts.B.C86_slice",
    "Nts.B.C86_rest",
    "Nts.B.C86_blocks",
    "Nts.B.C86_comments",
    "Nts.B.C86_code",
    "Nts.B.C86_split",
    "Nts.B.C86_modifiers",
    "Nts.B.C86_pointer",
    "Nts.B.C86_tag",
    "Nts.B.C86_moveto_tag",
    "Nts.B.C86_moveto",
    "Nts.B.C86_body"
   ],
   "note": "Model/Bytes.lean is a second, literal model of the byte scanners; C86_* are equalities with the character model for all inputs, including which slices panic."
  },
  {
   "property": "C87",
   "status": "proved",
   "theorems": [
    "Nts.C87_errors",
    "Nts.C87_errors_once",
    "Nts.C87_failed",
    "Nts.C87_delimiter",
    "Nts.C87_every_error"
   ],
   "note": "C87_errors: an iff for the whole render; C87_failed and C87_delimiter give the text for one BIF; C87_every_error holds after any history of calls."
  },
  {
   "property": "C88",
   "status": "proved",
   "theorems": [
    "Nts.C88_evaluation",
    "Nts.C88_render"
   ],
   "note": "C88_evaluation for any evaluation, C88_render for renders, with the limit of the schema."
  },
  {
   "property": "C89",
   "status": "proved",
   "theorems": [
    "Nts.C89_body",
    "Nts.C89_messages"
   ],
   "note": "C89_messages: for every template a program can hold, every entry of get_error is a delimiter line or a report with a message of the BIF it names (Spec.messages, Spec.messageForms); C89_body: for each body from any state. An example renders one failing template per message."
  },
  {
   "property": "C90",
   "status": "proved",
   "theorems": [
    "Nts.C90_depends",
    "Nts.C90_depends_once"
   ],
   "note": "C90_depends, C90_depends_once: equality of the whole results (output, shared state with errors and files) for any set of facilities, unless a BIF that needs one of them is evaluated in one of the passes; the hypothesis is about the first environment only."
  },
  {
   "property": "C91",
   "status": "proved",
   "theorems": [
    "Nts.C91_files",
    "Nts.C91_files_once",
    "Nts.C91_observed"
   ],
   "note": "C91_files, C91_files_once: the two whole results are equal up to the files in X, unless a BIF evaluated in the first run may look at a file in X (LooksAt: for obj, any file); C91_observed: same output, status, errors. canonicalize is a function of the path in the model (symbolic links are not files)."
  },
  {
   "property": "C92",
   "status": "proved",
   "theorems": [
    "Nts.C92_status",
    "Nts.C92_stopped",
    "Nts.C92_page",
    "Nts.C92_moved",
    "Nts.C92_data",
    "Nts.C92_files"
   ],
   "note": "Leaves: before the BIF the reported value differs, after it it is the final one. What exit and redirect set is C23/C41, moveto is C37."
  },
  {
   "property": "C93",
   "status": "proved",
   "theorems": [
    "Nts.C93_answer"
   ],
   "note": "full render theorem for exit (with or without parameter), HTTP and JavaScript redirects with literal parameter and any body of the language"
  },
  {
   "property": "C94",
   "status": "proved",
   "theorems": [
    "Nts.C94_copies",
    "Nts.C94_bounded_refuted"
   ],
   "note": "C94_copies is for every range, text, schema and limit; C94_bounded_refuted is the consequence: a bound on BIFs is no bound on output."
  },
  {
   "property": "C95",
   "status": "proved",
   "theorems": [
    "Nts.Clean.C95_refuses",
    "Nts.Clean.C95_only",
    "Nts.Clean.C95_removes",
    "Nts.Clean.C95_report",
    "Nts.Clean.C95_report_refuted"
   ],
   "note": "Exact in both directions (C95_only, C95_removes) up to the time the script takes; C95_report_refuted: a failed rm is reported as a deletion."
  },
  {
   "property": "C96",
   "status": "partial",
   "theorems": [
    "Nts.C96_agrees",
    "Nts.C96_lifetimes_refuted",
    "Nts.C96_render_partial",
    "Nts.C96_second_refuted"
   ],
   "note": "C96_render_partial is for a render a second or more after the run, with a clock that does not move during it, and lifetimes written as plain decimal numbers below 2^63; C96_agrees gives the exact times. In the same second, and for other lifetimes, the claim is false (C96_second_refuted, C96_lifetimes_refuted)."
  },
  {
   "property": "C97",
   "status": "partial",
   "theorems": [
    "Nts.Rm.C97_origin",
    "Nts.Rm.C97_error",
    "Nts.Rm.C97_removed",
    "Nts.Rm.C97_stays",
    "Nts.Rm.C97_locked_partial",
    "Nts.Rm.C97_refuted"
   ],
   "note": "C97_origin, C97_stays, C97_removed and C97_error are complete. The last clause (the script never makes a block end with an error) is false of the code and of the script: C97_refuted. C97_locked_partial gives complete texts for renders that exclude each other when writing, which the code does not do."
  },
  {
   "property": "C98",
   "status": "proved",
   "theorems": [
    "Nts.C98_bound",
    "Nts.C98_linear",
    "Nts.C98_exponential_refuted"
   ],
   "note": "All words and texts. The bound has the number of stars as exponent, and that is necessary: C98_exponential_refuted (2^n calls for n stars)."
  },
  {
   "property": "C99",
   "status": "proved",
   "theorems": [
    "Nts.Js.C99_once",
    "Nts.Js.C99_only",
    "Nts.Js.C99_auto",
    "Nts.Js.C99_click",
    "Nts.Js.C99_form",
    "Nts.Js.C99_visible",
    "Nts.Js.C99_target"
   ],
   "note": "All pages, contents of answers and histories. The document is a list of elements; what an answer does to it is any change."
  },
  {
   "property": "C100",
   "status": "partial",
   "theorems": [
    "Nts.Js.C100_atmost",
    "Nts.Js.C100_event_partial",
    "Nts.Js.C100_which",
    "Nts.Js.C100_refuted"
   ],
   "note": "C100_atmost and C100_which are complete; exactly one event is proved for submissions and for requests whose element to replace exists. For the others the claim is false of the script: C100_refuted."
  },
  {
   "property": "C101",
   "status": "partial",
   "theorems": [
    "Nts.Js.C101_plain_partial",
    "Nts.Js.C101_sent",
    "Nts.Js.C101_twice",
    "Nts.Js.C101_refuted"
   ],
   "note": "Complete for forms without a named file control; with one all successful controls are sent (C101_sent), but false of the script otherwise: C101_refuted, and in general C101_twice."
  },
  {
   "property": "C102",
   "status": "partial",
   "theorems": [
    "Nts.Js.C102_one_partial",
    "Nts.Js.C102_retry",
    "Nts.Js.C102_stuck",
    "Nts.Js.C102_refuted",
    "Nts.Js.C102_double_refuted"
   ],
   "note": "The first half for forms whose submit buttons carry the attribute, and retry after an error; false of the script otherwise: C102_refuted, C102_double_refuted."
  },
  {
   "property": "C103",
   "status": "proved",
   "theorems": [
    "Nts.C103_set",
    "Nts.C103_next",
    "Nts.C103_not_number",
    "Nts.C103_again",
    "Nts.C103_path_stuck"
   ],
   "note": "Names of the form local::… are read from the local data (C103_next excludes them); names with an arrow never advance (C103_path_stuck)."
  },
  {
   "property": "C104",
   "status": "proved",
   "theorems": [
    "Nts.C104_limit",
    "Nts.C104_written",
    "Nts.C104_self"
   ],
   "note": "Depth is counted in evaluations inside each other (activations of parse_with_blocks); the bytes of stack per activation are not modelled."
  },
  {
   "property": "C105",
   "status": "partial",
   "theorems": [
    "Nts.C105_written_partial",
    "Nts.C105_refuted"
   ],
   "note": "C105_written_partial: every BIF, any modifiers, any sources with the same parts; inside of a cache only BIFs that are not copied into it. Missing: cache, exit, moveto and redirect inside of a cached block, where the claim is false of the code (C105_refuted: {:!^cache; is printed, {:^!cache; is evaluated)."
  },
  {
   "property": "C106",
   "status": "partial",
   "theorems": [
    "Nts.C106_refused",
    "Nts.C106_args",
    "Nts.C106_sum",
    "Nts.C106_table",
    "Nts.C106_files_partial",
    "Nts.C106_allow",
    "Nts.C106_refuted"
   ],
   "note": "C106_refused, C106_args, C106_sum, C106_table, C106_allow: the full claim for these BIFs. C106_files_partial: data and locale refuse flags none of which is theirs; missing: a foreign flag beside one of theirs, which is ignored (C106_refuted). Not claimed: count and debug, which do not look at their flags."
  },
  {
   "property": "C107",
   "status": "partial",
   "theorems": [
    "Nts.C107_delimiter_partial",
    "Nts.C107_delimiter_only",
    "Nts.C107_compare",
    "Nts.C107_sum",
    "Nts.C107_replace",
    "Nts.C107_refuted"
   ],
   "note": "C107_delimiter_partial: same, contains, replace, cache with any arguments, fetch with literal ones (and cache not as the second pass inside of a cache, which copies its source). C107_delimiter_only: sum, join. C107_compare, C107_sum, C107_replace: each argument is evaluated on its own, in full. Missing: fetch with computed arguments, for which it is false (C107_refuted)."
  },
  {
   "property": "C108",
   "status": "proved",
   "theorems": [
    "Nts.C108_reports",
    "Nts.C108_only",
    "Nts.C108_version",
    "Nts.C108_http",
    "Nts.C108_stderr",
    "Nts.C108_large",
    "Nts.C108_bridge"
   ],
   "note": "C108_reports: every call reports one of the stages; C108_only: only that; sockets, files and the interpreter are parameters"
  },
  {
   "property": "C109",
   "status": "partial",
   "theorems": [
    "Nts.C109_bytes",
    "Nts.C109_whole_partial",
    "Nts.C109_kept",
    "Nts.C109_refuted",
    "Nts.C109_forever"
   ],
   "note": "C109_bytes, C109_whole_partial, C109_kept; the rest of the claim is false of the code: C109_refuted, C109_forever. PHP-FPM is assumed to read the file at once; nobody else changes it"
  },
  {
   "property": "C110",
   "status": "proved",
   "theorems": [
    "Nts.C110_upline",
    "Nts.C110_template",
    "Nts.C110_exceptions"
   ],
   "note": "C110_upline: every BIF, every state and evaluation of nested blocks; C110_template: in a template, where the rest is the same; C110_exceptions: the three exceptions"
  },
  {
   "property": "C111",
   "status": "proved",
   "theorems": [
    "Nts.C111_names",
    "Nts.C111_loops"
   ],
   "note": "For the templates of the language of C77. The renaming must be injective, keep names without separators such, and keep CONTEXT, __eval__ and the local:: names, which have a fixed meaning in the code."
  },
  {
   "property": "C112",
   "status": "proved",
   "theorems": [
    "Nts.C112_options",
    "Nts.C112_limit"
   ],
   "note": "C112_options: any two configurations whose differing options are not read by an evaluated BIF; C112_limit: raising the limit of BIFs. Lowering the limit is covered by C19 (the render ends in an abort or is the same by symmetry). obj and debug are excluded since they are given the whole schema."
  },
  {
   "property": "C113",
   "status": "proved",
   "theorems": [
    "Nts.C113_render",
    "Nts.C113_not_laws"
   ],
   "note": "C113_render: any two templates related by Swap; the limit has to be enough for both. C113_not_laws: what users may believe and is not so (a variable in a block is not the variable for a following else; else is not the opposite test)."
  },
  {
   "property": "C114",
   "status": "proved",
   "theorems": [
    "Nts.B.C114_same_blocks",
    "Nts.B.C114_blocks",
    "Nts.B.C114_square",
    "Nts.B.C114_linear",
    "Nts.B.C114_same_comments",
    "Nts.B.C114_comments",
    "Nts.B.C114_same_code",
    "Nts.B.C114_code",
    "Nts.B.C114_worst"
   ],
   "note": "Bounds for all byte strings and a matching lower bound for a family of texts; the work is counted in looks at a position (find) and bytes read. The inner comparison of a pattern of at most three bytes at a position counts as one look."
  },
  {
   "property": "C115",
   "status": "proved",
   "theorems": [
    "Nts.C115_groups",
    "Nts.C115_groups_refuted",
    "Nts.C115_order",
    "Nts.C115_order_exact",
    "Nts.C115_templates",
    "Nts.C115_templates_order",
    "Nts.C115_ajax",
    "Nts.C115_ajax_refuted"
   ],
   "note": "The property as stated includes its exceptions, which are theorems."
  },
  {
   "property": "C116",
   "status": "proved",
   "theorems": [
    "Nts.C116_markup_read",
    "Nts.C116_means",
    "Nts.C116_render",
    "Nts.C116_places_needed",
    "Nts.C116_filter_needed"
   ],
   "note": "For all templates of the language accepted by the check. The HTML reader follows the tokenizer of the HTML standard; constructs it does not follow lead to a place that is never accepted. C116_places_needed and C116_filter_needed: the places and the filter are needed."
  },
  {
   "property": "C117",
   "status": "proved",
   "theorems": [
    "Nts.C117_render",
    "Nts.C117_reads_matter"
   ],
   "note": "Complements C80 (the data) and C112 (options, for all templates). C117_reads_matter: what is read does matter."
  },
  {
   "property": "C118",
   "status": "partial",
   "theorems": [
    "Nts.C118_render",
    "Nts.C118_age_partial",
    "Nts.C118_two_partial",
    "Nts.C118_requests_partial",
    "Nts.C118_refuted",
    "Nts.C118_effect_refuted"
   ],
   "note": "The claims of doc/bif-cache.md about nested lifetimes are false (C118_refuted: an inner text 394 s old with lifetimes 100 and 300; C118_effect_refuted). Proved in full: what every page with nested cached parts prints and stores (C118_render), and for all histories the bound by the sum of the lifetimes (C118_age_partial, C118_requests_partial; C118_two_partial for the page of the documentation). For {:!cache;} blocks inside see C119. Not covered: cached parts inside other BIFs than cache."
  },
  {
   "property": "C119",
   "status": "partial",
   "theorems": [
    "Nts.C119_carried",
    "Nts.C119_render",
    "Nts.C119_stored",
    "Nts.C119_age",
    "Nts.C119_pass",
    "Nts.C119_requests",
    "Nts.C119_texts",
    "Nts.C119_one",
    "Nts.C119_refuted"
   ],
   "note": "An excluded part does not always show what it would without cache: parameters and loop variables of the blocks of the cached part are not there (C119_refuted). Proved: what every page with cached and excluded parts, nested in each other in any way, prints and leaves in the cache (C119_render), that stored texts have all excluded parts as written (C119_stored), how old the texts are, for all histories (C119_age, C119_pass, C119_requests), and that code in an excluded part is evaluated as anywhere (C119_carried, for all code). Missing: excluded parts inside other BIFs than cache; C119_render needs that the texts around have no {: or :} (C119_texts: met when no evaluation gives braces) and that the limit of BIFs is not reached."
  },
  {
   "property": "C120",
   "status": "partial",
   "theorems": [
    "Nts.C120_exact",
    "Nts.C120_kept",
    "Nts.C120_render",
    "Nts.C120_refuted"
   ],
   "note": "False for what comes after the first excluded part (C120_refuted: noparse and join). Proved for all pages: what comes before it stays as it is, and all of the rest is evaluated as template code (C120_exact, C120_render: when that evaluation has no errors); without excluded parts all stays (C120_kept)."
  },
  {
   "property": "C121",
   "status": "proved",
   "theorems": [
    "Nts.C121_invisible",
    "Nts.C121_without",
    "Nts.C121_render",
    "Nts.C121_same",
    "Nts.C121_steady",
    "Nts.C121_repeated",
    "Nts.C121_needed"
   ],
   "note": "For all pages of templates and cached parts nested to any depth, all kinds of requests that the entries tell apart as far as needed (Faithful), all histories and clocks. C121_steady is the syntactic class of templates; C121_needed shows why templates with traces are excluded. Excluded parts and cached parts inside other BIFs are not in these pages (C119, C75)."
  },
  {
   "property": "C122",
   "status": "proved",
   "theorems": [
    "Nts.C122_spaces",
    "Nts.C122_inked",
    "Nts.C122_history",
    "Nts.C122_without",
    "Nts.C122_render"
   ],
   "note": "For all pages, kinds faithful as FaithfulItems says, all histories. Equality with the uncached page only up to white space: C122_spaces shows it is not exact. Premises: calm texts between excluded parts, number of passes j at most n, BIF limit not reached."
  },
  {
   "property": "C123",
   "status": "proved",
   "theorems": [
    "Nts.C123_arguments",
    "Nts.C123_words",
    "Nts.C123_range",
    "Nts.C123_lifetime"
   ],
   "note": "For all states, modifiers and arguments, literal or computed. fetch without an address is C74_no_address, count C103, obj C64."
  },
  {
   "property": "C124",
   "status": "proved",
   "theorems": [
    "Nts.C124_text",
    "Nts.C124_render",
    "Nts.C124_silent",
    "Nts.C124_unknown"
   ],
   "note": "C124_text: a text a, BIF B, b, where evaluating a leads to (sh1, inh1), B fails there with any message (runBif = failed ..., the outcome C42 and C123 give for the errors they describe), and B' shows nothing there: both texts produce the same text and the same Inherit, and states related by ButErrors (all fields equal but schema.__error, hasError and the tick). C124_render: whole renders of the two templates: same output, status, count of BIFs, files, data. C124_unknown: an unknown BIF against {:code;:}. The condition Unaware (no BIF evaluated in b, at any depth, is date, cache, rand, hash, obj or debug) is on the run after the error; sample: debug sees the error. The first pass must leave no {:!cache; in the output (C124_render)."
  },
  {
   "property": "C125",
   "status": "proved",
   "theorems": [
    "Nts.C125_render",
    "Nts.C125_exact",
    "Nts.C125_bif",
    "Nts.C125_request",
    "Nts.C125_clean",
    "Nts.C125_premises_needed"
   ],
   "note": "C125_render (pages of texts and variables; Displays is the HTML reading of C01, independent of the model; the values are those of the data as given, before they are sanitised), C125_exact (data without &: displayed exactly), C125_bif (one variable, any template, any state), C125_request (request data as given at the start, at any place of any template, any state), C125_clean (every text built of characters and escapes displays what it denotes). unescape_chars reads references as the code does: an & before one hides it (it is then displayed as written). C125_premises_needed: unfiltered data are read as HTML, and request data under keys with special characters are found under the encoded key."
  },
  {
   "property": "C126",
   "status": "proved",
   "theorems": [
    "Nts.C126_text",
    "Nts.C126_render",
    "Nts.C126_replaced"
   ],
   "note": "C126_text: page or nested block a ++ B ++ b, any state in which B ends the page (exit is set by B or by anything evaluated in it); C126_render: whole renders of two pages that begin alike and go on with different texts, each with a BIF or comment; C126_replaced: any rest, when the page is replaced (three-digit status 400-599, 301, 302, 303, 307, 308, or a JavaScript redirection). The pages are well formed (an unmatched delimiter after the end is an error of the whole page, see C29) and the text printed before the end does not hold {:!cache;, which a second pass would evaluate (C75)."
  },
  {
   "property": "C127",
   "status": "proved",
   "theorems": [
    "Nts.C127_text",
    "Nts.C127_render",
    "Nts.C127_premises_needed"
   ],
   "note": "C127_text: page or nested block a ++ t ++ B ++ b, with t text and comments (Stripped, the specification of C16), any state in which B prints nothing and does not end the page; C127_render: whole renders, same output and same state. That B prints nothing is a premise on its evaluation (runBif … = .ok [] …), met by every BIF with empty output and no modifier ^. C127_premises_needed: ^ and the end of the page. Neither t nor b begins with ':' (after a brace it would begin a BIF)."
  },
  {
   "property": "C128",
   "status": "proved",
   "theorems": [
    "Nts.C128_text",
    "Nts.C128_render",
    "Nts.C128_nested",
    "Nts.C128_shown",
    "Nts.C128_condition",
    "Nts.C128_compare",
    "Nts.C128_else",
    "Nts.C128_coalesce",
    "Nts.C128_code",
    "Nts.C128_rounds",
    "Nts.C128_each",
    "Nts.C128_for",
    "Nts.C128_every",
    "Nts.C128_determined",
    "Nts.C128_premise_needed"
   ],
   "note": "C128_text: pages and nested blocks, any state, same state afterwards and same outputs of the BIFs (Woven; C128_determined: they determine the output); C128_render: whole renders (both end; the premises on {:!cache; concern outputs that a second pass would evaluate, C75), with the output that the final passes make of each text, and equal outputs of pages that are replaced by their status. C128_every: every well-formed page is some BIFs with texts and comments between them. C128_nested, C128_shown, C128_condition, C128_compare, C128_else, C128_coalesce, C128_code, C128_rounds, C128_each, C128_for: the same for the text in the code of those BIFs, which the rest of the page sees only in that the code prints something or nothing (C128_premise_needed)."
  },
  {
   "property": "C129",
   "status": "proved",
   "theorems": [
    "Nts.C129_text",
    "Nts.C129_render",
    "Nts.C129_condition",
    "Nts.C129_compare",
    "Nts.C129_else",
    "Nts.C129_eval",
    "Nts.C129_coalesce",
    "Nts.C129_each"
   ],
   "note": "Beside the exchange theorems: C68_split is the converse of C68_append (what a concatenation produces is what its parts produce, one after the other). C129_text (any place of any nested text) and C129_render (whole renders) exchange BIFs that do the same in the state reached; C129_condition, C129_compare, C129_else, C129_eval, C129_coalesce and C129_each give the exchangeable BIFs: unreached code of conditions, comparisons, else, eval, coalesce and loops over nothing. Code after the end of a page is C126, comments are C17. The code of a BIF must still be delimited (the page must be well formed), since the blocks are found before anything is evaluated."
  },
  {
   "property": "C130",
   "status": "proved",
   "theorems": [
    "Nts.C130_place",
    "Nts.C130_before",
    "Nts.C130_anywhere",
    "Nts.C130_code_of",
    "Nts.C130_condition",
    "Nts.C130_compare",
    "Nts.C130_else",
    "Nts.C130_coalesce",
    "Nts.C130_code",
    "Nts.C130_flags",
    "Nts.C130_eval",
    "Nts.C130_rounds",
    "Nts.C130_each",
    "Nts.C130_for",
    "Nts.C130_render",
    "Nts.C130_pages",
    "Nts.C130_spaces"
   ],
   "note": "A congruence: C130_place and C130_anywhere exchange a BIF in a text (in the state reached, or in all states), C130_before puts text in front, C130_code_of goes from texts to codes of BIFs, C130_condition/compare/else/eval/coalesce/code/flags/rounds/each/for from codes to BIFs, C130_render and C130_pages to whole renders; applied one after the other they reach every depth. C130_spaces is a law to begin with (white space around the text of a code). An evaluation that panics (BIF limit) is not a result: only results are compared, so the second page must be shown to do what the first does when that has a result. For laws that change the number of BIFs see C113."
  }
 ]
}