Nts.B.C114_blocks: [propext, Classical.choice, Quot.sound]
Nts.B.C114_code: [propext, Quot.sound]
Nts.B.C114_comments: [propext, Classical.choice, Quot.sound]
Nts.B.C114_linear: [propext, Classical.choice, Quot.sound]
Nts.B.C114_same_blocks: [propext, Quot.sound]
Nts.B.C114_same_code: [propext, Quot.sound]
Nts.B.C114_same_comments: [propext, Quot.sound]
Nts.B.C114_square: [propext, Classical.choice, Quot.sound]
Nts.B.C114_worst: [propext, Classical.choice, Quot.sound]
Nts.B.C86_blocks: [propext, Classical.choice, Quot.sound]
Nts.B.C86_body: [propext, Classical.choice, Quot.sound]
Nts.B.C86_code: [propext, Classical.choice, Quot.sound]
Nts.B.C86_comments: [propext, Classical.choice, Quot.sound]
Nts.B.C86_modifiers: [propext, Classical.choice, Quot.sound]
Nts.B.C86_moveto: [propext, Classical.choice, Quot.sound]
Nts.B.C86_moveto_tag: [propext, Classical.choice, Quot.sound]
Nts.B.C86_pointer: [propext, Classical.choice, Quot.sound]
Nts.B.C86_rest: [propext, Classical.choice, Quot.sound]
Nts.B.C86_slice: [propext, Classical.choice, Quot.sound]
Nts.B.C86_split: [propext, Classical.choice, Quot.sound]
Nts.B.C86_tag: [propext, Classical.choice, Quot.sound]
Nts.C01_escape_clean: [propext, Quot.sound]
Nts.C01_escape_keeps_braces: [propext, Quot.sound]
Nts.C01_escape_plain: [propext, Quot.sound]
Nts.C01_escape_shows: [propext, Quot.sound]
Nts.C02_injective: [propext, Quot.sound]
Nts.C02_roundtrip: [propext, Quot.sound]
Nts.C03_filter_escaped: [propext, Quot.sound]
Nts.C03_filter_idempotent: [propext, Quot.sound]
Nts.C03_filter_value_idempotent: [propext, Quot.sound]
Nts.C04_context_clean: [propext, Quot.sound]
Nts.C04_context_shape: [propext, Quot.sound]
Nts.C04_outside_unchanged: [propext, Quot.sound]
Nts.C05_exact: [propext, Quot.sound]
Nts.C05_keys_collide: [propext]
Nts.C05_no_entry_lost_partial: [propext, Quot.sound]
Nts.C05_value: [propext, Quot.sound]
Nts.C06_idempotent: [propext, Classical.choice, Quot.sound]
Nts.C06_key_order: [propext, Quot.sound]
Nts.C06_last_writer: [propext, Classical.choice, Quot.sound]
Nts.C06_objects_merge: [propext, Classical.choice, Quot.sound]
Nts.C06_owned_same: [propext]
Nts.C06_replaced: [propext, Classical.choice, Quot.sound]
Nts.C06_untouched: [propext, Classical.choice, Quot.sound]
Nts.C07_ajax_value: [propext, Classical.choice, Quot.sound]
Nts.C07_owned_same: [propext]
Nts.C07_rest_unchanged: [propext, Classical.choice, Quot.sound]
Nts.C07_version_and_ajax: [propext, Classical.choice, Quot.sound]
Nts.C08_exact: [propext, Quot.sound]
Nts.C08_objects_never_panic_partial: [propext, Quot.sound]
Nts.C08_scalar_panics: [propext]
Nts.C09_array_index: [propext, Quot.sound]
Nts.C09_every_name: [propext, Classical.choice, Quot.sound]
Nts.C09_path: [propext, Classical.choice, Quot.sound]
Nts.C09_plain: [propext, Classical.choice, Quot.sound]
Nts.C103_again: [propext, Classical.choice, Quot.sound]
Nts.C103_next: [propext, Classical.choice, Quot.sound]
Nts.C103_not_number: [propext, Classical.choice, Quot.sound]
Nts.C103_path_stuck: [propext]
Nts.C103_set: [propext, Classical.choice, Quot.sound]
Nts.C104_limit: [propext, Classical.choice, Quot.sound]
Nts.C104_self: [propext, Classical.choice, Quot.sound]
Nts.C104_written: [propext, Classical.choice, Quot.sound]
Nts.C105_refuted: [propext]
Nts.C105_written_partial: [propext, Classical.choice, Quot.sound]
Nts.C106_allow: [propext, Classical.choice, Quot.sound]
Nts.C106_args: [propext, Classical.choice, Quot.sound]
Nts.C106_files_partial: [propext, Classical.choice, Quot.sound]
Nts.C106_refused: [propext, Classical.choice, Quot.sound]
Nts.C106_refuted: [propext]
Nts.C106_sum: [propext, Classical.choice, Quot.sound]
Nts.C106_table: [propext, Classical.choice, Quot.sound]
Nts.C107_compare: [propext, Classical.choice, Quot.sound]
Nts.C107_delimiter_only: [propext, Classical.choice, Quot.sound]
Nts.C107_delimiter_partial: [propext, Classical.choice, Quot.sound]
Nts.C107_refuted: [propext]
Nts.C107_replace: [propext, Classical.choice, Quot.sound]
Nts.C107_sum: [propext, Classical.choice, Quot.sound]
Nts.C108_bridge: [propext]
Nts.C108_http: [propext, Classical.choice, Quot.sound]
Nts.C108_large: [propext, Classical.choice, Quot.sound]
Nts.C108_only: [propext, Classical.choice, Quot.sound]
Nts.C108_reports: [propext, Classical.choice, Quot.sound]
Nts.C108_stderr: [propext, Classical.choice, Quot.sound]
Nts.C108_version: [propext, Classical.choice, Quot.sound]
Nts.C109_bytes: [propext, Classical.choice, Quot.sound]
Nts.C109_forever: [propext, Classical.choice, Quot.sound]
Nts.C109_kept: [propext, Classical.choice, Quot.sound]
Nts.C109_refuted: [propext]
Nts.C109_whole_partial: [propext, Classical.choice, Quot.sound]
Nts.C10_declare_partial: [propext, Classical.choice, Quot.sound]
Nts.C10_param_get: [propext, Classical.choice, Quot.sound]
Nts.C10_param_partial: [propext, Classical.choice, Quot.sound]
Nts.C10_param_set: [propext, Classical.choice, Quot.sound]
Nts.C10_refuted: [propext]
Nts.C10_snippet_partial: [propext, Classical.choice, Quot.sound]
Nts.C10_snippet_play: [propext, Classical.choice, Quot.sound]
Nts.C10_snippet_set: [propext, Classical.choice, Quot.sound]
Nts.C110_exceptions: [propext]
Nts.C110_template: [propext, Classical.choice, Quot.sound]
Nts.C110_upline: [propext, Classical.choice, Quot.sound]
Nts.C111_loops: [propext, Classical.choice, Quot.sound]
Nts.C111_names: [propext, Classical.choice, Quot.sound]
Nts.C112_limit: [propext, Classical.choice, Quot.sound]
Nts.C112_options: [propext, Classical.choice, Quot.sound]
Nts.C113_not_laws: [propext]
Nts.C113_render: [propext, Classical.choice, Quot.sound]
Nts.C115_ajax: [propext, Classical.choice, Quot.sound]
Nts.C115_ajax_refuted: [propext]
Nts.C115_groups: [propext, Classical.choice, Quot.sound]
Nts.C115_groups_refuted: [propext]
Nts.C115_order: [propext, Classical.choice, Quot.sound]
Nts.C115_order_exact: [propext, Classical.choice, Quot.sound]
Nts.C115_templates: [propext, Classical.choice, Quot.sound]
Nts.C115_templates_order: [propext, Classical.choice, Quot.sound]
Nts.C116_filter_needed: [propext]
Nts.C116_markup_read: [propext]
Nts.C116_means: [propext, Classical.choice, Quot.sound]
Nts.C116_places_needed: [propext]
Nts.C116_render: [propext, Classical.choice, Quot.sound]
Nts.C117_reads_matter: [propext]
Nts.C117_render: [propext, Classical.choice, Quot.sound]
Nts.C118_age_partial: [propext, Quot.sound]
Nts.C118_effect_refuted: [propext]
Nts.C118_refuted: [propext]
Nts.C118_render: [propext, Classical.choice, Quot.sound]
Nts.C118_requests_partial: [propext, Classical.choice, Quot.sound]
Nts.C118_two_partial: [propext, Quot.sound]
Nts.C119_age: [propext, Classical.choice, Quot.sound]
Nts.C119_carried: [propext, Classical.choice, Quot.sound]
Nts.C119_one: [propext, Classical.choice, Quot.sound]
Nts.C119_pass: [propext, Classical.choice, Quot.sound]
Nts.C119_refuted: [propext]
Nts.C119_render: [propext, Classical.choice, Quot.sound]
Nts.C119_requests: [propext, Classical.choice, Quot.sound]
Nts.C119_stored: [propext, Quot.sound]
Nts.C119_texts: [propext, Quot.sound]
Nts.C11_array: [propext, Quot.sound]
Nts.C11_bool: [propext, Classical.choice, Quot.sound]
Nts.C11_defined: [propext, Quot.sound]
Nts.C11_filled: [propext, Quot.sound]
Nts.C11_implications: [propext, Classical.choice, Quot.sound]
Nts.C120_exact: [propext, Classical.choice, Quot.sound]
Nts.C120_kept: [propext, Classical.choice, Quot.sound]
Nts.C120_refuted: [propext]
Nts.C120_render: [propext, Classical.choice, Quot.sound]
Nts.C121_invisible: [propext, Quot.sound]
Nts.C121_needed: [propext]
Nts.C121_render: [propext, Classical.choice, Quot.sound]
Nts.C121_repeated: [propext, Quot.sound]
Nts.C121_same: [propext, Quot.sound]
Nts.C121_steady: [propext, Quot.sound]
Nts.C121_without: [propext, Quot.sound]
Nts.C122_history: [propext, Classical.choice, Quot.sound]
Nts.C122_inked: [propext, Classical.choice, Quot.sound]
Nts.C122_render: [propext, Classical.choice, Quot.sound]
Nts.C122_spaces: [propext]
Nts.C122_without: [propext, Quot.sound]
Nts.C123_arguments: [propext, Classical.choice, Quot.sound]
Nts.C123_lifetime: [propext, Classical.choice, Quot.sound]
Nts.C123_range: [propext, Classical.choice, Quot.sound]
Nts.C123_words: [propext, Classical.choice, Quot.sound]
Nts.C124_render: [propext, Classical.choice, Quot.sound]
Nts.C124_silent: [propext, Classical.choice, Quot.sound]
Nts.C124_text: [propext, Classical.choice, Quot.sound]
Nts.C124_unknown: [propext, Classical.choice, Quot.sound]
Nts.C125_bif: [propext, Classical.choice, Quot.sound]
Nts.C125_clean: [propext, Quot.sound]
Nts.C125_exact: [propext]
Nts.C125_premises_needed: [propext, Quot.sound]
Nts.C125_render: [propext, Classical.choice, Quot.sound]
Nts.C125_request: [propext, Classical.choice, Quot.sound]
Nts.C126_render: [propext, Classical.choice, Quot.sound]
Nts.C126_replaced: [propext, Classical.choice, Quot.sound]
Nts.C126_text: [propext, Quot.sound]
Nts.C127_premises_needed: [propext]
Nts.C127_render: [propext, Classical.choice, Quot.sound]
Nts.C127_text: [propext]
Nts.C128_coalesce: [propext, Classical.choice, Quot.sound]
Nts.C128_code: [propext, Classical.choice, Quot.sound]
Nts.C128_compare: [propext, Classical.choice, Quot.sound]
Nts.C128_condition: [propext, Classical.choice, Quot.sound]
Nts.C128_determined: [propext, Quot.sound]
Nts.C128_each: [propext, Classical.choice, Quot.sound]
Nts.C128_else: [propext, Classical.choice, Quot.sound]
Nts.C128_every: [Classical.choice]
Nts.C128_for: [propext, Classical.choice, Quot.sound]
Nts.C128_nested: [propext, Classical.choice, Quot.sound]
Nts.C128_premise_needed: [propext]
Nts.C128_render: [propext, Classical.choice, Quot.sound]
Nts.C128_rounds: [propext, Classical.choice, Quot.sound]
Nts.C128_shown: [propext, Classical.choice, Quot.sound]
Nts.C128_text: [propext, Quot.sound]
Nts.C129_coalesce: [propext, Quot.sound]
Nts.C129_compare: [propext, Classical.choice, Quot.sound]
Nts.C129_condition: [propext, Classical.choice, Quot.sound]
Nts.C129_each: [propext, Classical.choice, Quot.sound]
Nts.C129_else: [propext, Classical.choice, Quot.sound]
Nts.C129_eval: [propext, Classical.choice, Quot.sound]
Nts.C129_render: [propext, Classical.choice, Quot.sound]
Nts.C129_text: [propext, Quot.sound]
Nts.C12_literal: [propext, Classical.choice, Quot.sound]
Nts.C12_wildcard: [propext, Classical.choice, Quot.sound]
Nts.C130_anywhere: [propext, Quot.sound]
Nts.C130_before: [propext, Quot.sound]
Nts.C130_coalesce: [propext, Classical.choice, Quot.sound]
Nts.C130_code: [propext, Classical.choice, Quot.sound]
Nts.C130_code_of: [propext, Classical.choice, Quot.sound]
Nts.C130_compare: [propext, Classical.choice, Quot.sound]
Nts.C130_condition: [propext, Classical.choice, Quot.sound]
Nts.C130_each: [propext, Classical.choice, Quot.sound]
Nts.C130_else: [propext, Classical.choice, Quot.sound]
Nts.C130_eval: [propext, Classical.choice, Quot.sound]
Nts.C130_flags: [propext, Classical.choice, Quot.sound]
Nts.C130_for: [propext, Classical.choice, Quot.sound]
Nts.C130_pages: [propext, Classical.choice, Quot.sound]
Nts.C130_place: [propext, Quot.sound]
Nts.C130_render: [propext, Classical.choice, Quot.sound]
Nts.C130_rounds: [propext, Classical.choice, Quot.sound]
Nts.C130_spaces: [propext, Classical.choice, Quot.sound]
Nts.C13_allow: [propext, Classical.choice, Quot.sound]
Nts.C13_exact: [propext, Classical.choice, Quot.sound]
Nts.C13_replace: [propext, Classical.choice, Quot.sound]
Nts.C13_undeclared: [propext, Classical.choice, Quot.sound]
Nts.C14_blocks: [propext, Classical.choice, Quot.sound]
Nts.C14_error: [propext, Classical.choice, Quot.sound]
Nts.C15_complete: [propext, Classical.choice, Quot.sound]
Nts.C16_disagrees: [propext]
Nts.C16_exact: [propext, Classical.choice, Quot.sound]
Nts.C16_loses_text: []
Nts.C16_no_panic_partial: [propext, Quot.sound]
Nts.C16_not_idempotent: []
Nts.C16_panics: [propext]
Nts.C16_panics_exact: [propext, Classical.choice, Quot.sound]
Nts.C16_removes: [propext, Classical.choice, Quot.sound]
Nts.C16_render: [propext, Classical.choice, Quot.sound]
Nts.C16_unchanged: [propext, Classical.choice, Quot.sound]
Nts.C17_context: [propext, Classical.choice, Quot.sound]
Nts.C17_inert: [propext, Classical.choice, Quot.sound]
Nts.C18_first: [propext, Classical.choice, Quot.sound]
Nts.C18_none: [propext, Quot.sound]
Nts.C18_sound: [propext, Quot.sound]
Nts.C18_split: [propext, Classical.choice, Quot.sound]
Nts.C19_budget: [propext, Quot.sound]
Nts.C19_depth: [propext]
Nts.C19_each_counts: [propext, Quot.sound]
Nts.C19_render: [propext, Quot.sound]
Nts.C19_terminates: [propext, Quot.sound]
Nts.C19_where: [propext, Classical.choice, Quot.sound]
Nts.C20_exact: [propext, Classical.choice, Quot.sound]
Nts.C20_exact_once: [propext, Classical.choice, Quot.sound]
Nts.C20_refuted: [propext, Quot.sound]
Nts.C20_refuted_request: [propext, Classical.choice, Quot.sound]
Nts.C20_stuck_partial: [propext, Classical.choice, Quot.sound]
Nts.C21_blocks: [propext, Quot.sound]
Nts.C21_render: [propext, Quot.sound]
Nts.C21_render_once: [propext, Quot.sound]
Nts.C22_errors_grow: [propext, Quot.sound]
Nts.C22_has_error: [propext, Quot.sound]
Nts.C23_block: [propext]
Nts.C23_cache: [propext, Quot.sound]
Nts.C23_cached: [propext, Classical.choice, Quot.sound]
Nts.C23_cached_refuted: [propext]
Nts.C23_completes: [propext]
Nts.C23_effect: [propext, Classical.choice, Quot.sound]
Nts.C23_partial: [propext, Quot.sound]
Nts.C23_refuted: [propext]
Nts.C24_block: [propext, Quot.sound]
Nts.C24_met: [propext, Quot.sound]
Nts.C24_passes: [propext, Quot.sound]
Nts.C24_scope_modifier: [propext]
Nts.C24_start: [propext]
Nts.C25_default: [propext]
Nts.C25_filtered: [propext, Classical.choice, Quot.sound]
Nts.C25_no_delimiters: [propext, Classical.choice, Quot.sound]
Nts.C25_value: [propext, Classical.choice, Quot.sound]
Nts.C26_partial: [propext, Classical.choice, Quot.sound]
Nts.C26_refuted: [propext]
Nts.C27_exact: [propext, Classical.choice, Quot.sound]
Nts.C27_insecure: [propext, Classical.choice, Quot.sound]
Nts.C27_limits: [propext]
Nts.C27_refused: [propext, Classical.choice, Quot.sound]
Nts.C28_comments: [propext, Classical.choice, Quot.sound]
Nts.C28_comments_kept: [propext, Classical.choice, Quot.sound]
Nts.C28_plain: [propext, Classical.choice, Quot.sound]
Nts.C29_error: [propext, Classical.choice, Quot.sound]
Nts.C29_unmatched: [propext, Classical.choice, Quot.sound]
Nts.C30_same: [propext]
Nts.C31_kept: [propext, Classical.choice, Quot.sound]
Nts.C31_refuted: [propext]
Nts.C31_refuted_error: [propext]
Nts.C31_repeat_partial: [propext, Classical.choice, Quot.sound]
Nts.C31_repeat_plain: [propext, Classical.choice, Quot.sound]
Nts.C31_schema_kept: [propext, Quot.sound]
Nts.C31_second: [propext, Classical.choice, Quot.sound]
Nts.C32_plain_partial: [propext, Classical.choice, Quot.sound]
Nts.C32_refuted: [propext, Classical.choice, Quot.sound]
Nts.C33_compare: [propext, Classical.choice, Quot.sound]
Nts.C33_complement: [propext, Classical.choice, Quot.sound]
Nts.C33_condition: [propext, Classical.choice, Quot.sound]
Nts.C34_after_nothing_partial: [propext, Classical.choice, Quot.sound]
Nts.C34_after_output: [propext, Classical.choice, Quot.sound]
Nts.C34_else: [propext, Classical.choice, Quot.sound]
Nts.C34_refuted: [propext]
Nts.C35_block: [propext, Classical.choice, Quot.sound]
Nts.C35_coalesce: [propext, Classical.choice, Quot.sound]
Nts.C35_output_remembered: [propext, Classical.choice, Quot.sound]
Nts.C35_rest_skipped: [propext, Classical.choice, Quot.sound]
Nts.C35_stops: [propext, Classical.choice, Quot.sound]
Nts.C36_each: [propext, Classical.choice, Quot.sound]
Nts.C36_for_partial: [propext, Classical.choice, Quot.sound]
Nts.C36_refuted: [propext]
Nts.C37_bif: [propext, Classical.choice, Quot.sound]
Nts.C37_distinct: [propext, Quot.sound]
Nts.C37_refuted: [propext]
Nts.C37_render_partial: [propext, Classical.choice, Quot.sound]
Nts.C38_exact: [propext]
Nts.C38_hit: [propext, Classical.choice, Quot.sound]
Nts.C38_longest: [propext, Classical.choice, Quot.sound]
Nts.C38_miss: [propext, Classical.choice, Quot.sound]
Nts.C38_refuted: [propext]
Nts.C38_roundtrip: [propext, Classical.choice, Quot.sound]
Nts.C38_separate_partial: [propext, Quot.sound]
Nts.C38_shared: [propext]
Nts.C38_store_fails: [propext, Classical.choice, Quot.sound]
Nts.C40_custom_partial: [propext, Quot.sound]
Nts.C40_custom_refuted: [propext]
Nts.C40_longer: [propext, Quot.sound]
Nts.C40_three_digits: [propext, Classical.choice, Quot.sound]
Nts.C41_accepted: [propext, Classical.choice, Quot.sound]
Nts.C41_refuted: [propext]
Nts.C41_rejected_partial: [propext, Classical.choice, Quot.sound]
Nts.C41_rejected_state: [propext]
Nts.C42_malformed_partial: [propext, Classical.choice, Quot.sound]
Nts.C42_modifier: [propext, Classical.choice, Quot.sound]
Nts.C42_recorded: [propext]
Nts.C42_refuted: [propext]
Nts.C42_unknown: [propext, Classical.choice, Quot.sound]
Nts.C43_default: [propext]
Nts.C43_once_partial: [propext, Quot.sound]
Nts.C43_otherwise: [propext, Classical.choice, Quot.sound]
Nts.C43_partial: [propext, Quot.sound]
Nts.C43_refuted: [propext]
Nts.C43_refuted_comment: [propext]
Nts.C43_where: [propext, Classical.choice, Quot.sound]
Nts.C43_where_once: [propext, Classical.choice, Quot.sound]
Nts.C44_code: [propext, Classical.choice, Quot.sound]
Nts.C44_code_written: [propext, Classical.choice, Quot.sound]
Nts.C44_include: [propext, Classical.choice, Quot.sound]
Nts.C45_fallback_partial: [propext, Classical.choice, Quot.sound]
Nts.C45_no_language: [propext, Classical.choice, Quot.sound]
Nts.C45_path: [propext, Classical.choice, Quot.sound]
Nts.C45_refuted: [propext]
Nts.C45_translated_partial: [propext, Classical.choice, Quot.sound]
Nts.C46_disabled: [propext, Quot.sound]
Nts.C46_marked: [propext, Quot.sound]
Nts.C46_marked_bif: [propext, Classical.choice, Quot.sound]
Nts.C46_once: [propext, Quot.sound]
Nts.C47_no_marks_partial: [propext, Classical.choice, Quot.sound]
Nts.C47_refuted: [propext]
Nts.C47_replacements: [propext, Classical.choice, Quot.sound]
Nts.C47_unchanged: [propext, Quot.sound]
Nts.C48_lang: [propext, Classical.choice, Quot.sound]
Nts.C48_rand: [propext, Classical.choice, Quot.sound]
Nts.C48_rand_default: [propext, Classical.choice, Quot.sound]
Nts.C48_rand_rejected: [propext, Classical.choice, Quot.sound]
Nts.C48_sum: [propext, Classical.choice, Quot.sound]
Nts.C48_sum_rejected: [propext, Classical.choice, Quot.sound]
Nts.C49_bif: [propext, Classical.choice, Quot.sound]
Nts.C49_exact: [propext, Classical.choice, Quot.sound]
Nts.C49_replace: [propext, Classical.choice, Quot.sound]
Nts.C49_unchanged: [propext]
Nts.C50_body: [propext, Quot.sound]
Nts.C50_body_other: [propext, Classical.choice, Quot.sound]
Nts.C50_call: [propext, Classical.choice, Quot.sound]
Nts.C50_length: [propext, Quot.sound]
Nts.C50_pairs_unique: [propext, Quot.sound]
Nts.C50_request: [propext, Classical.choice, Quot.sound]
Nts.C50_response: [propext, Classical.choice, Quot.sound]
Nts.C50_response_closed: [propext, Classical.choice, Quot.sound]
Nts.C50_stream_unique: [propext, Quot.sound]
Nts.C51_partial: [propext, Classical.choice, Quot.sound]
Nts.C51_refuted: [propext, Classical.choice, Quot.sound]
Nts.C52_inherited: [propext, Quot.sound]
Nts.C52_kept: [propext, Quot.sound]
Nts.C52_nested_forgotten: [propext]
Nts.C52_remembered: [propext, Classical.choice, Quot.sound]
Nts.C52_skipped: [propext, Classical.choice, Quot.sound]
Nts.C53_during: [propext, Classical.choice, Quot.sound]
Nts.C53_status_text: [propext, Classical.choice, Quot.sound]
Nts.C54_file_partial: [propext, Classical.choice, Quot.sound]
Nts.C54_inline_partial: [propext, Classical.choice, Quot.sound]
Nts.C54_refuted: [propext]
Nts.C54_wiped: [propext, Classical.choice, Quot.sound]
Nts.C55_fresh_partial: [propext, Classical.choice, Quot.sound]
Nts.C55_refuted: [propext]
Nts.C56_exact: [propext, Classical.choice, Quot.sound]
Nts.C56_partial: [propext, Classical.choice, Quot.sound]
Nts.C56_refuted: [propext, Quot.sound]
Nts.C56_timeout_partial: [propext, Classical.choice, Quot.sound]
Nts.C57_file: [propext, Classical.choice, Quot.sound]
Nts.C57_inline: [propext, Classical.choice, Quot.sound]
Nts.C58_flags: [propext, Classical.choice, Quot.sound]
Nts.C58_hidden: [propext, Classical.choice, Quot.sound]
Nts.C58_plain: [propext, Classical.choice, Quot.sound]
Nts.C58_shown: [propext, Classical.choice, Quot.sound]
Nts.C59_exact: [propext, Classical.choice, Quot.sound]
Nts.C59_join_partial: [propext, Classical.choice, Quot.sound]
Nts.C59_refuted: [propext]
Nts.C60_default: [propext, Classical.choice, Quot.sound]
Nts.C60_from_file: [propext, Quot.sound]
Nts.C60_last_document: [propext, Classical.choice, Quot.sound]
Nts.C60_messages: [propext]
Nts.C60_rejected: [propext, Quot.sound]
Nts.C60_same_merge: [propext]
Nts.C60_source: [propext]
Nts.C61_blocks: [propext, Classical.choice, Quot.sound]
Nts.C61_kept: [propext, Quot.sound]
Nts.C61_render: [propext, Classical.choice, Quot.sound]
Nts.C61_render_once: [propext, Classical.choice, Quot.sound]
Nts.C64_call: [propext, Classical.choice, Quot.sound]
Nts.C64_data_partial: [propext, Classical.choice, Quot.sound]
Nts.C64_invalid: [propext, Classical.choice, Quot.sound]
Nts.C64_missing: [propext, Classical.choice, Quot.sound]
Nts.C64_no_definition: [propext, Classical.choice, Quot.sound]
Nts.C64_refuted: [propext]
Nts.C65_disabled: [propext, Classical.choice, Quot.sound]
Nts.C65_shows: [propext, Classical.choice, Quot.sound]
Nts.C65_test: [propext, Classical.choice, Quot.sound]
Nts.C65_version: [propext, Classical.choice, Quot.sound]
Nts.C66_data_partial: [propext, Classical.choice, Quot.sound]
Nts.C66_include_partial: [propext, Classical.choice, Quot.sound]
Nts.C66_locale_partial: [propext, Classical.choice, Quot.sound]
Nts.C66_obj_refuted: [propext]
Nts.C66_refuted: [propext]
Nts.C67_data: [propext, Classical.choice, Quot.sound]
Nts.C67_include: [propext, Classical.choice, Quot.sound]
Nts.C67_locale: [propext, Classical.choice, Quot.sound]
Nts.C68_append: [propext]
Nts.C68_blocks: [propext, Classical.choice, Quot.sound]
Nts.C68_nested: [propext, Classical.choice, Quot.sound]
Nts.C68_render: [propext, Classical.choice, Quot.sound]
Nts.C68_scope: [propext, Classical.choice, Quot.sound]
Nts.C68_split: [propext, Quot.sound]
Nts.C69_output: [propext, Classical.choice, Quot.sound]
Nts.C69_trimmed: [propext, Classical.choice, Quot.sound]
Nts.C69_upline: [propext, Classical.choice, Quot.sound]
Nts.C70_code: [propext, Classical.choice, Quot.sound]
Nts.C70_encode_bifs: [propext, Classical.choice, Quot.sound]
Nts.C70_encode_tags: [propext, Classical.choice, Quot.sound]
Nts.C70_encode_tags_after: [propext, Classical.choice, Quot.sound]
Nts.C70_encode_tags_partial: [propext, Quot.sound]
Nts.C70_flg: [propext, Classical.choice, Quot.sound]
Nts.C70_noparse: [propext, Classical.choice, Quot.sound]
Nts.C70_refuted: [propext]
Nts.C70_unknown_flag: [propext, Classical.choice, Quot.sound]
Nts.C71_declare_partial: [propext, Classical.choice, Quot.sound]
Nts.C71_param: [propext, Classical.choice, Quot.sound]
Nts.C71_refuted: [propext]
Nts.C71_snippet_partial: [propext, Classical.choice, Quot.sound]
Nts.C71_static: [propext, Classical.choice, Quot.sound]
Nts.C71_static_leaks: [propext]
Nts.C72_directory_partial: [propext, Quot.sound]
Nts.C72_include: [propext, Classical.choice, Quot.sound]
Nts.C72_main: [propext]
Nts.C72_noparse: [propext, Classical.choice, Quot.sound]
Nts.C72_refuted: [propext, Quot.sound]
Nts.C72_snippet_exact: [propext, Classical.choice, Quot.sound]
Nts.C73_count: [propext, Classical.choice, Quot.sound]
Nts.C73_date_exact: [propext, Classical.choice, Quot.sound]
Nts.C73_date_partial: [propext, Classical.choice, Quot.sound]
Nts.C73_hash: [propext, Classical.choice, Quot.sound]
Nts.C73_hash_random: [propext, Classical.choice, Quot.sound]
Nts.C73_neutral: [propext, Classical.choice, Quot.sound]
Nts.C73_refuted: [propext]
Nts.C74_element_partial: [propext, Classical.choice, Quot.sound]
Nts.C74_no_address: [propext, Classical.choice, Quot.sound]
Nts.C74_refuted: [propext]
Nts.C75_ends: [propext, Quot.sound]
Nts.C75_evaluated: [propext, Classical.choice, Quot.sound]
Nts.C75_excluded: [propext, Classical.choice, Quot.sound]
Nts.C75_off: [propext, Classical.choice, Quot.sound]
Nts.C75_stored: [propext, Classical.choice, Quot.sound]
Nts.C76_data: [propext, Classical.choice, Quot.sound]
Nts.C76_files: [propext, Classical.choice, Quot.sound]
Nts.C76_moveto: [propext, Classical.choice, Quot.sound]
Nts.C76_same: [propext]
Nts.C76_status: [propext, Classical.choice, Quot.sound]
Nts.C77_means: [propext, Classical.choice, Quot.sound]
Nts.C77_render: [propext, Classical.choice, Quot.sound]
Nts.C78_means: [propext, Classical.choice, Quot.sound]
Nts.C78_premises_needed: [propext]
Nts.C78_render: [propext, Classical.choice, Quot.sound]
Nts.C79_render: [propext, Classical.choice, Quot.sound]
Nts.C80_render: [propext, Classical.choice, Quot.sound]
Nts.C81_render: [propext, Classical.choice, Quot.sound]
Nts.C82_render: [propext, Classical.choice, Quot.sound]
Nts.C82_settings: [propext, Classical.choice, Quot.sound]
Nts.C82_start: [propext, Classical.choice, Quot.sound]
Nts.C83_errors: [propext, Classical.choice, Quot.sound]
Nts.C83_other: [propext]
Nts.C83_premises_needed: [propext, Classical.choice, Quot.sound]
Nts.C83_value: [propext, Classical.choice, Quot.sound]
Nts.C85_again: [propext, Quot.sound]
Nts.C85_history: [propext, Quot.sound]
Nts.C85_render: [propext, Classical.choice, Quot.sound]
Nts.C85_requests: [propext, Classical.choice, Quot.sound]
Nts.C85_transparent: [propext, Classical.choice, Quot.sound]
Nts.C87_delimiter: [propext, Classical.choice, Quot.sound]
Nts.C87_errors: [propext, Classical.choice, Quot.sound]
Nts.C87_errors_once: [propext, Classical.choice, Quot.sound]
Nts.C87_every_error: [propext, Classical.choice, Quot.sound]
Nts.C87_failed: [propext, Quot.sound]
Nts.C88_evaluation: [propext, Quot.sound]
Nts.C88_render: [propext, Quot.sound]
Nts.C89_body: [propext]
Nts.C89_messages: [propext, Classical.choice, Quot.sound]
Nts.C90_depends: [propext, Classical.choice, Quot.sound]
Nts.C90_depends_once: [propext, Classical.choice, Quot.sound]
Nts.C91_files: [propext, Classical.choice, Quot.sound]
Nts.C91_files_once: [propext, Classical.choice, Quot.sound]
Nts.C91_observed: [propext, Classical.choice, Quot.sound]
Nts.C92_data: [propext, Classical.choice, Quot.sound]
Nts.C92_files: [propext, Classical.choice, Quot.sound]
Nts.C92_moved: [propext, Classical.choice, Quot.sound]
Nts.C92_page: [propext, Classical.choice, Quot.sound]
Nts.C92_status: [propext, Classical.choice, Quot.sound]
Nts.C92_stopped: [propext, Classical.choice, Quot.sound]
Nts.C93_answer: [propext, Classical.choice, Quot.sound]
Nts.C94_bounded_refuted: [propext, Classical.choice, Quot.sound]
Nts.C94_copies: [propext, Classical.choice, Quot.sound]
Nts.C96_agrees: [propext, Quot.sound]
Nts.C96_lifetimes_refuted: [propext, Quot.sound]
Nts.C96_render_partial: [propext, Classical.choice, Quot.sound]
Nts.C96_second_refuted: [propext, Classical.choice, Quot.sound]
Nts.C98_bound: [propext, Classical.choice, Quot.sound]
Nts.C98_exponential_refuted: [propext, Quot.sound]
Nts.C98_linear: [propext, Classical.choice, Quot.sound]
Nts.Clean.C95_only: [propext, Classical.choice, Quot.sound]
Nts.Clean.C95_refuses: [propext, Classical.choice, Quot.sound]
Nts.Clean.C95_removes: [propext, Classical.choice, Quot.sound]
Nts.Clean.C95_report: [propext, Classical.choice, Quot.sound]
Nts.Clean.C95_report_refuted: [propext]
Nts.Fs.C39_locked_partial: [propext, Quot.sound]
Nts.Fs.C39_origin_partial: [propext, Quot.sound]
Nts.Fs.C39_poisoned: [propext, Quot.sound]
Nts.Fs.C39_refuted: [propext, Quot.sound]
Nts.Fs.C39_stays: [propext, Quot.sound]
Nts.Js.C100_atmost: [propext, Classical.choice, Quot.sound]
Nts.Js.C100_event_partial: [propext, Classical.choice, Quot.sound]
Nts.Js.C100_refuted: [propext]
Nts.Js.C100_which: [propext, Classical.choice, Quot.sound]
Nts.Js.C101_plain_partial: [propext, Quot.sound]
Nts.Js.C101_refuted: []
Nts.Js.C101_sent: [propext, Quot.sound]
Nts.Js.C101_twice: [propext, Quot.sound]
Nts.Js.C102_double_refuted: [propext]
Nts.Js.C102_one_partial: [propext, Classical.choice, Quot.sound]
Nts.Js.C102_refuted: [propext, Classical.choice, Quot.sound]
Nts.Js.C102_retry: [propext, Classical.choice, Quot.sound]
Nts.Js.C102_stuck: [propext, Classical.choice, Quot.sound]
Nts.Js.C99_auto: [propext, Classical.choice, Quot.sound]
Nts.Js.C99_click: [propext, Classical.choice, Quot.sound]
Nts.Js.C99_form: [propext, Classical.choice, Quot.sound]
Nts.Js.C99_once: [propext, Classical.choice, Quot.sound]
Nts.Js.C99_only: [propext, Classical.choice, Quot.sound]
Nts.Js.C99_target: [propext, Classical.choice, Quot.sound]
Nts.Js.C99_visible: [propext, Classical.choice, Quot.sound]
Nts.Py.C62_cached: [propext, Quot.sound]
Nts.Py.C62_defined: [propext, Quot.sound]
Nts.Py.C62_errors: [propext, Quot.sound]
Nts.Py.C62_own_partial: [propext, Quot.sound]
Nts.Py.C62_refuted: []
Nts.Py.C62_runs: [propext, Quot.sound]
Nts.Py.C63_concurrent_partial: [propext, Quot.sound]
Nts.Py.C63_refuted: [propext]
Nts.Py.C63_sequential: [propext, Quot.sound]
Nts.Py.C84_first_partial: [propext, Quot.sound]
Nts.Py.C84_ignored: [propext, Quot.sound]
Nts.Py.C84_missing: [propext, Quot.sound]
Nts.Py.C84_path: [propext, Quot.sound]
Nts.Py.C84_refuted: [propext]
Nts.Rm.C97_error: [propext, Classical.choice, Quot.sound]
Nts.Rm.C97_locked_partial: [propext, Quot.sound]
Nts.Rm.C97_origin: [propext, Quot.sound]
Nts.Rm.C97_refuted: [propext, Quot.sound]
Nts.Rm.C97_removed: [propext, Quot.sound]
Nts.Rm.C97_stays: [propext, Classical.choice, Quot.sound]
