{
 "claims": [
  {
   "property": "C01",
   "status": "proved",
   "theorems": [
    "Verif.Plural.C01_no_panic",
    "Verif.Plural.C01_eval_iff",
    "Verif.Antlr.C70_value"
   ],
   "note": "ANTLR's extra diagnostics are an arbitrary parameter in the first two (C69, C70: there are none); stack exhaustion on very deep inputs is not modelled."
  },
  {
   "property": "C02",
   "status": "proved",
   "theorems": [
    "Verif.Plural.C02_builtin_eq_general",
    "Verif.Antlr.C70_builtin"
   ],
   "note": "All 12 built-in expressions, all int64 n, given that ANTLR raises no extra diagnostic for the text (C70: it raises none)."
  },
  {
   "property": "C03",
   "status": "proved",
   "theorems": [
    "Verif.Plural.C03_gnu_rules"
   ],
   "note": "Against an arithmetic table written from the GNU manual; range also for negative n."
  },
  {
   "property": "C04",
   "status": "proved",
   "theorems": [
    "Verif.Plural.C04_stack",
    "Verif.Plural.C04_final_stack"
   ],
   "note": ""
  },
  {
   "property": "C05",
   "status": "proved",
   "theorems": [
    "Verif.Plural.C05_parse_iff",
    "Verif.Plural.C05_unambiguous",
    "Verif.Plural.C05_parenthesised",
    "Verif.Plural.C05_parens_value"
   ],
   "note": ""
  },
  {
   "property": "C06",
   "status": "proved",
   "theorems": [
    "Verif.Plural.C06_c_semantics",
    "Verif.Plural.C06_parse",
    "Verif.Plural.C06_builtin",
    "Verif.Plural.C06_counterexamples"
   ],
   "note": "The statement says where the code agrees with C and where it does not; the agreement is proved under the stated conditions, each disagreement by a counterexample."
  },
  {
   "property": "C07",
   "status": "proved",
   "theorems": [
    "Verif.Plural.C07_lex",
    "Verif.Plural.C07_eval",
    "Verif.Plural.C07_blank_inside_token"
   ],
   "note": "For texts of whole expressions; the last theorem shows why blanks inside tokens are different."
  },
  {
   "property": "C08",
   "status": "proved",
   "theorems": [
    "Verif.Plural.C08_trailing_ignored",
    "Verif.Plural.C01_eval_iff",
    "Verif.Antlr.C70_value",
    "Verif.Plural.C08_counterexample"
   ],
   "note": "The rejecting reading is false of the code (counterexample for every n); what holds is proved exactly."
  },
  {
   "property": "C09",
   "status": "proved",
   "theorems": [
    "Verif.Fmt.C09_no_args"
   ],
   "note": ""
  },
  {
   "property": "C10",
   "status": "proved",
   "theorems": [
    "Verif.Fmt.C10_no_extra",
    "Verif.Fmt.C10_eq_sprintf",
    "Verif.Fmt.C10_plain_text",
    "Verif.Fmt.C10_too_many",
    "Verif.Fmt.C10_counterexample"
   ],
   "note": "Numbers written in directives are assumed to be at most a million; both limits in the statement are shown to be needed."
  },
  {
   "property": "C11",
   "status": "proved",
   "theorems": [
    "Verif.Fmt.C11_default_plural"
   ],
   "note": ""
  },
  {
   "property": "C12",
   "status": "proved",
   "theorems": [
    "Verif.Tr.C12_lookup_last_added",
    "Verif.Tr.C12_other_messages"
   ],
   "note": ""
  },
  {
   "property": "C13",
   "status": "proved",
   "theorems": [
    "Verif.Tr.C13_key_injective",
    "Verif.Tr.C13_collision"
   ],
   "note": ""
  },
  {
   "property": "C14",
   "status": "proved",
   "theorems": [
    "Verif.Tr.C14_plural_lookup",
    "Verif.Tr.C14_panic_iff",
    "Verif.Tr.C14_counterexample"
   ],
   "note": "The exact panic condition is proved, and a counterexample to panic freedom."
  },
  {
   "property": "C15",
   "status": "proved",
   "theorems": [
    "Verif.Tr.C15_first_wins",
    "Verif.Tr.C15_before_first_use",
    "Verif.Tr.C15_first_use_fixes"
   ],
   "note": ""
  },
  {
   "property": "C17",
   "status": "proved",
   "theorems": [
    "Verif.Tr.C17_lookups_pure",
    "Verif.Tr.C17_lookups_keep_entries",
    "Verif.Tr.C17_lookup_freezes_headers"
   ],
   "note": ""
  },
  {
   "property": "C18",
   "status": "proved",
   "theorems": [
    "Verif.Tr.C18_syntax",
    "Verif.Tr.C18_parse",
    "Verif.Tr.C18_reject",
    "Verif.Tr.C18_unique"
   ],
   "note": ""
  },
  {
   "property": "C16",
   "status": "proved",
   "theorems": [
    "Verif.Tr.C16_exact",
    "Verif.Tr.C16_counterexample"
   ],
   "note": "Contexts without EOT. The language is characterised for every content; the claim about the header entry wherever it stands is refuted."
  },
  {
   "property": "C19",
   "status": "proved",
   "theorems": [
    "Verif.Tr.C19_unquote_quote",
    "Verif.Tr.C19_one_line"
   ],
   "note": ""
  },
  {
   "property": "C20",
   "status": "proved",
   "theorems": [
    "Verif.Tr.C20_split"
   ],
   "note": ""
  },
  {
   "property": "C21",
   "status": "proved",
   "theorems": [
    "Verif.Tr.C21_round_trip",
    "Verif.Tr.C21_consistent"
   ],
   "note": "For a non-empty set of entries; the empty file is saved as the empty text, which ReadPo rejects (C21_empty)."
  },
  {
   "property": "C22",
   "status": "proved",
   "theorems": [
    "Verif.Tr.C22_total"
   ],
   "note": ""
  },
  {
   "property": "C23",
   "status": "proved",
   "theorems": [
    "Verif.Tr.C23_exact",
    "Verif.Tr.C23_counterexample"
   ],
   "note": "Panic freedom is refuted; the exact panic condition is proved."
  },
  {
   "property": "C24",
   "status": "proved",
   "theorems": [
    "Verif.Tr.C24_meaningful_lines",
    "Verif.Tr.C24_carriage_return",
    "Verif.Tr.C24_blank_line"
   ],
   "note": "Between non-empty contents; the empty content is an error of its own."
  },
  {
   "property": "C25",
   "status": "proved",
   "theorems": [
    "Verif.Tr.C25_last_translated",
    "Verif.Tr.C25_all_translated",
    "Verif.Tr.C25_joined"
   ],
   "note": "C25_last_translated for contexts without EOT byte, C25_joined without condition."
  },
  {
   "property": "C26",
   "status": "proved",
   "theorems": [
    "Verif.Tr.C26_error_iff",
    "Verif.Tr.C26_ok_iff",
    "Verif.Tr.C26_exclusive"
   ],
   "note": ""
  },
  {
   "property": "C27",
   "status": "proved",
   "theorems": [
    "Verif.Tr.C27_round_trip"
   ],
   "note": ""
  },
  {
   "property": "C28",
   "status": "proved",
   "theorems": [
    "Verif.Tr.C28_deterministic",
    "Verif.Tr.C28_header_first",
    "Verif.Tr.C28_counterexample",
    "Verif.Tr.C28_tie"
   ],
   "note": "Proved for PO, POT and MO under the proviso of the statement (no two entries have the same sort key); the claim that the output may differ otherwise is proved by counterexamples."
  },
  {
   "property": "C29",
   "status": "proved",
   "theorems": [
    "Verif.Tr.C29_line_order",
    "Verif.Tr.C29_number"
   ],
   "note": ""
  },
  {
   "property": "C30",
   "status": "proved",
   "theorems": [
    "Verif.Tr.C30_round_trip"
   ],
   "note": "Total size below 2^32 bytes, as claimed; C30_conditions_needed shows the conditions are needed."
  },
  {
   "property": "C31",
   "status": "proved",
   "theorems": [
    "Verif.Tr.C31_byte_order",
    "Verif.Tr.C31_image"
   ],
   "note": ""
  },
  {
   "property": "C32",
   "status": "proved",
   "theorems": [
    "Verif.Tr.C32_total",
    "Verif.Tr.C32_substrings"
   ],
   "note": "Allocation of the announced lengths (up to 4 GiB) is assumed to succeed."
  },
  {
   "property": "C33",
   "status": "proved",
   "theorems": [
    "Verif.Tr.C33_layout",
    "Verif.Tr.C33_length"
   ],
   "note": ""
  },
  {
   "property": "C34",
   "status": "proved",
   "theorems": [
    "Verif.Tr.C34_sorted_iff",
    "Verif.Tr.C34_sorted",
    "Verif.Tr.C34_counterexample"
   ],
   "note": "The unrestricted claim is refuted for each of the two causes; for files without reference comments the exact condition is proved."
  },
  {
   "property": "C35",
   "status": "proved",
   "theorems": [
    "Verif.Tr.C35_same_lookups"
   ],
   "note": "For files whose only entry with an empty id is the header; every sequence of lookups."
  },
  {
   "property": "C36",
   "status": "proved",
   "theorems": [
    "Verif.W.C36_frame",
    "Verif.W.C36_independent",
    "Verif.W.C36_copies"
   ],
   "note": "All histories of calls on any number of values; WithContext is C49."
  },
  {
   "property": "C37",
   "status": "proved",
   "theorems": [
    "Verif.W.C37_hasDomain",
    "Verif.W.C37_domains",
    "Verif.W.C37_remove",
    "Verif.W.C37_fresh"
   ],
   "note": ""
  },
  {
   "property": "C38",
   "status": "proved",
   "theorems": [
    "Verif.W.C38_domain",
    "Verif.W.C38_locales"
   ],
   "note": ""
  },
  {
   "property": "C39",
   "status": "proved",
   "theorems": [
    "Verif.W.C39_failed",
    "Verif.W.C39_bound"
   ],
   "note": ""
  },
  {
   "property": "C40",
   "status": "proved",
   "theorems": [
    "Verif.W.C40_po_wins",
    "Verif.W.C40_all_files"
   ],
   "note": ""
  },
  {
   "property": "C41",
   "status": "proved",
   "theorems": [
    "Verif.W.C41_last_added",
    "Verif.W.C41_returns"
   ],
   "note": ""
  },
  {
   "property": "C42",
   "status": "proved",
   "theorems": [
    "Verif.W.C42_locale",
    "Verif.W.C46_fallback"
   ],
   "note": "For L through C36_copies; an unloaded domain is C46. locale.Normalize is an arbitrary function."
  },
  {
   "property": "C43",
   "status": "proved",
   "theorems": [
    "Verif.W.C43_used_locale"
   ],
   "note": "In an unloaded domain the source text is returned as long as the shared object of unknown domains is empty (C46)."
  },
  {
   "property": "C44",
   "status": "proved",
   "theorems": [
    "Verif.W.C44_locales",
    "Verif.W.C44_idempotent",
    "Verif.W.C44_deterministic",
    "Verif.W.C44_exists"
   ],
   "note": ""
  },
  {
   "property": "C45",
   "status": "proved",
   "theorems": [
    "Verif.W.C45_short_names",
    "Verif.W.C45_package"
   ],
   "note": ""
  },
  {
   "property": "C46",
   "status": "proved",
   "theorems": [
    "Verif.W.C46_fallback",
    "Verif.W.C46_unknown_locale"
   ],
   "note": ""
  },
  {
   "property": "C47",
   "status": "proved",
   "theorems": [
    "Verif.W.C47_global",
    "Verif.W.C47_false",
    "Verif.W.C47_receiver_ignored"
   ],
   "note": "The claim about the receiver is refuted (for every normalization that is not constantly en_US). The index returned by the matcher is assumed to be in range."
  },
  {
   "property": "C48",
   "status": "proved",
   "theorems": [
    "Verif.W.C48_user_lang",
    "Verif.W.C48_last_option",
    "Verif.W.C48_exists"
   ],
   "note": "The index returned by the matcher is assumed to be in range."
  },
  {
   "property": "C49",
   "status": "proved",
   "theorems": [
    "Verif.W.C49_with_context"
   ],
   "note": ""
  },
  {
   "property": "C50",
   "status": "proved",
   "theorems": [
    "Verif.Conc.C50_tags",
    "Verif.Conc.C50_progress"
   ],
   "note": "Small-step interleaving model; sync.Map operations are atomic."
  },
  {
   "property": "C51",
   "status": "proved",
   "theorems": [
    "Verif.Conc.C51_agree",
    "Verif.Conc.C51_progress"
   ],
   "note": "Small-step interleaving model with sequentially consistent memory, as claimed; data races and the ANTLR runtime are not modelled."
  },
  {
   "property": "C52",
   "status": "proved",
   "theorems": [
    "Verif.W.C52_marks"
   ],
   "note": ""
  },
  {
   "property": "C53",
   "status": "proved",
   "theorems": [
    "Verif.Xt.C53_exact",
    "Verif.Xt.C53_rejects",
    "Verif.Xt.C53_unique"
   ],
   "note": ""
  },
  {
   "property": "C54",
   "status": "proved",
   "theorems": [
    "Verif.Xt.C54_exact",
    "Verif.Xt.C54_count",
    "Verif.Xt.C54_file",
    "Verif.Xt.C54_gaps",
    "Verif.Xt.C54_receiver",
    "Verif.Xt.C54_gap_example"
   ],
   "note": "The template tree is the input here; the parser of text/template is the subject of C74 to C76."
  },
  {
   "property": "C55",
   "status": "proved",
   "theorems": [
    "Verif.Xt.C55_piped",
    "Verif.Xt.C55_parens"
   ],
   "note": ""
  },
  {
   "property": "C56",
   "status": "proved",
   "theorems": [
    "Verif.Xt.C56_merge",
    "Verif.Xt.C56_reported",
    "Verif.Xt.C56_plural_header",
    "Verif.Xt.C56_eot"
   ],
   "note": "For contexts without EOT; C56_eot shows the condition is needed."
  },
  {
   "property": "C57",
   "status": "proved",
   "theorems": [
    "Verif.Xt.C57_pot",
    "Verif.Xt.C57_exists",
    "Verif.Xt.C57_header_first",
    "Verif.Xt.C57_false"
   ],
   "note": "Proved exactly, including when the header is replaced; C57_false refutes the unconditional claim."
  },
  {
   "property": "C58",
   "status": "proved",
   "theorems": [
    "Verif.Xt.C58_run",
    "Verif.Xt.C58_early",
    "Verif.Xt.C58_total"
   ],
   "note": "The template parser, glob and disk are parameters."
  },
  {
   "property": "C59",
   "status": "proved",
   "theorems": [
    "Verif.Xt.C59_scan",
    "Verif.Xt.C59_registered",
    "Verif.Xt.C59_no_keyword"
   ],
   "note": ""
  },
  {
   "property": "C61",
   "status": "proved",
   "theorems": [
    "Verif.Xt.C61_panic",
    "Verif.Xt.C61_only"
   ],
   "note": ""
  },
  {
   "property": "C60",
   "status": "proved",
   "theorems": [
    "Verif.Errors.C60_errorf",
    "Verif.Errors.C60_wrapf",
    "Verif.Errors.C60_wrapf_is",
    "Verif.Errors.C60_secondary_is",
    "Verif.Errors.C60_only_causes",
    "Verif.Errors.C60_exact",
    "Verif.Errors.C60_call_sites",
    "Verif.Errors.C60_false",
    "Verif.Errors.C60_unused_argument",
    "Verif.Errors.C60_stray_percent"
   ],
   "note": "For plain formats, and C60_exact for all; C60_false refutes the claim for every format."
  },
  {
   "property": "C62",
   "status": "proved",
   "theorems": [
    "Verif.Slice.C62_format",
    "Verif.Slice.C62_lookup",
    "Verif.Slice.C62_plural_lookup",
    "Verif.Slice.C62_wrapf",
    "Verif.Slice.C62_aliasing"
   ],
   "note": "C62_aliasing shows that the element behind a prefix slice is overwritten."
  },
  {
   "property": "C63",
   "status": "proved",
   "theorems": [
    "Verif.Xt.C63_readable",
    "Verif.Xt.C63_run",
    "Verif.Xt.C63_line_end"
   ],
   "note": "For file names without line ends; C63_line_end shows what happens with one."
  },
  {
   "property": "C64",
   "status": "proved",
   "theorems": [
    "Verif.Xt.C64_unique",
    "Verif.Xt.C64_run",
    "Verif.Xt.C64_permuted",
    "Verif.Xt.C64_order",
    "Verif.Xt.C64_comments"
   ],
   "note": ""
  },
  {
   "property": "C65",
   "status": "proved",
   "theorems": [
    "Verif.Xt.C65_main",
    "Verif.Xt.C65_total",
    "Verif.Xt.C65_readable",
    "Verif.Xt.C65_debug",
    "Verif.Xt.C65_version"
   ],
   "note": "Go's flag package is modelled from its source; what is written to stderr is the subject of C97 and C99."
  },
  {
   "property": "C66",
   "status": "proved",
   "theorems": [
    "Verif.W.C66_po",
    "Verif.W.C66_mo",
    "Verif.W.C66_usual"
   ],
   "note": ""
  },
  {
   "property": "C67",
   "status": "proved",
   "theorems": [
    "Verif.W.C67_clean",
    "Verif.W.C67_clean_unique",
    "Verif.W.C67_join",
    "Verif.W.C67_empty",
    "Verif.W.C67_bind"
   ],
   "note": "Unix paths; no symbolic links; the disk does not change during a walk."
  },
  {
   "property": "C68",
   "status": "proved",
   "theorems": [
    "Verif.Antlr.C68_match",
    "Verif.Antlr.C68_tokens",
    "Verif.Antlr.C68_unique"
   ],
   "note": "The runtime (antlr4-go v4.13.0) is not in the repository; it is modelled from the published algorithm."
  },
  {
   "property": "C69",
   "status": "proved",
   "theorems": [
    "Verif.Antlr.C69_tables",
    "Verif.Antlr.C69_whether",
    "Verif.Antlr.C69_how",
    "Verif.Antlr.C69_one_token",
    "Verif.Antlr.C69_loopAlt"
   ],
   "note": "As C68; what the tables do not use (rule calls while predicting, further lookahead) gives none, shown never to be reached."
  },
  {
   "property": "C70",
   "status": "proved",
   "theorems": [
    "Verif.Antlr.C70_tree",
    "Verif.Antlr.C70_eval",
    "Verif.Antlr.C70_value",
    "Verif.Antlr.C70_builtin"
   ],
   "note": "As C68; error recovery is the subject of C111."
  },
  {
   "property": "C71",
   "status": "proved",
   "theorems": [
    "Verif.Re.C71_runs",
    "Verif.Re.C71_leftmost",
    "Verif.Re.C71_header",
    "Verif.Re.C71_plurals",
    "Verif.Re.C71_idents",
    "Verif.Re.C71_compile",
    "Verif.Re.C71_headerLine",
    "Verif.Re.C71_headers",
    "Verif.Re.C71_parsePlural",
    "Verif.Re.C71_scan"
   ],
   "note": "Package regexp (standard library) is modelled by its documented semantics, a backtracking search, not by its automata."
  },
  {
   "property": "C72",
   "status": "proved",
   "theorems": [
    "Verif.Tr.C72_message",
    "Verif.Tr.C72_line",
    "Verif.Tr.C72_unique",
    "Verif.Tr.C72_empty",
    "Verif.Tr.C72_syntax",
    "Verif.Tr.C72_is"
   ],
   "note": "The texts of fmt.Errorf are written out as concatenations of the operands."
  },
  {
   "property": "C73",
   "status": "proved",
   "theorems": [
    "Verif.Xt.C73_plain",
    "Verif.Xt.C73_exists",
    "Verif.Xt.C73_message",
    "Verif.Xt.C73_unique",
    "Verif.Xt.C73_exclusive",
    "Verif.Xt.C73_faithful"
   ],
   "note": "errors.Errorf and Wrapf of cockroachdb/errors are taken to be fmt.Sprintf; a listed finding: the text is used as a format."
  },
  {
   "property": "C74",
   "status": "proved",
   "theorems": [
    "Verif.Tmpl.C74_suffices",
    "Verif.Tmpl.C74_all_known",
    "Verif.Tmpl.C74_builtin",
    "Verif.Tmpl.C74_unknown",
    "Verif.Tmpl.C74_nonascii",
    "Verif.Tmpl.C74_ascii"
   ],
   "note": "The scanner and parser of text/template (standard library, not in /repo) are modelled from the published source of Go 1.23; the acceptance of numbers is a parameter."
  },
  {
   "property": "C75",
   "status": "proved",
   "theorems": [
    "Verif.Tmpl.C75_items",
    "Verif.Tmpl.C75_count",
    "Verif.Tmpl.C75_comments",
    "Verif.Tmpl.C75_depth"
   ],
   "note": "About the model of text/template; supports C74."
  },
  {
   "property": "C76",
   "status": "proved",
   "theorems": [
    "Verif.Tmpl.C76_parsed",
    "Verif.Tmpl.C76_entries",
    "Verif.Tmpl.C76_exact",
    "Verif.Tmpl.C76_action",
    "Verif.Tmpl.C76_message"
   ],
   "note": "The grammar leaves out other numbers than decimal integers, character constants, declarations inside parentheses and several definitions of one template. text/template is modelled from the published source of Go 1.23."
  },
  {
   "property": "C77",
   "status": "proved",
   "theorems": [
    "Verif.Conc.C77_read_only",
    "Verif.Conc.C77_race",
    "Verif.Conc.C77_loaded",
    "Verif.Conc.C77_bound"
   ],
   "note": "A race is two goroutines about to access one lazy field, one of them to write it. Shared state in the ANTLR runtime and goroutines that call BindFS, SetLocale or AddOrReplace meanwhile are not covered."
  },
  {
   "property": "C78",
   "status": "proved",
   "theorems": [
    "Verif.W.C78_settings",
    "Verif.W.C78_seen",
    "Verif.W.C78_unseen",
    "Verif.W.C78_copies_share",
    "Verif.W.C78_through_copy",
    "Verif.W.C78_unknown_shared",
    "Verif.W.C78_bound_private"
   ],
   "note": ""
  },
  {
   "property": "C79",
   "status": "proved",
   "theorems": [
    "Verif.Tmpl.C79_items",
    "Verif.Tmpl.C79_entry",
    "Verif.Tmpl.C79_text",
    "Verif.Tmpl.C79_none"
   ],
   "note": "For the modelled parser of text/template. With a line break in a delimiter the line numbers are wrong (example beside the theorems)."
  },
  {
   "property": "C80",
   "status": "proved",
   "theorems": [
    "Verif.W.C80_text"
   ],
   "note": ""
  },
  {
   "property": "C81",
   "status": "proved",
   "theorems": [
    "Verif.Flow.C81_pot",
    "Verif.Flow.C81_translated",
    "Verif.Flow.C81_conflict",
    "Verif.Flow.C81_rest",
    "Verif.Flow.C81_message"
   ],
   "note": "C81_message is for the modelled parser of text/template and plain delimiters (see C76). Stated for extracted contexts without EOT bytes, as C63."
  },
  {
   "property": "C82",
   "status": "proved",
   "theorems": [
    "Verif.Serve.C82_alone",
    "Verif.Serve.C82_no_race",
    "Verif.Serve.C82_unchanged",
    "Verif.Serve.C82_ends",
    "Verif.Serve.C82_requests",
    "Verif.Serve.C82_shared",
    "Verif.Serve.C82_calls",
    "Verif.Serve.C82_locales"
   ],
   "note": "Sequentially consistent memory; an object is filled when it is allocated; a map is read by one access. What a lookup does within a translator is C17, its lazy fields C51 and C77, the tag cache C50. C82_calls ties the accesses to the undivided calls of the other properties."
  },
  {
   "property": "C83",
   "status": "proved",
   "theorems": [
    "Verif.W.C83_form",
    "Verif.W.C83_same",
    "Verif.W.C83_idempotent",
    "Verif.W.C83_settled",
    "Verif.W.C83_scripts"
   ],
   "note": "The packages language and go-locale are parameters; what is assumed of them is said by Prints, Letters and Faithful (Spec/Locale.lean)."
  },
  {
   "property": "C84",
   "status": "proved",
   "theorems": [
    "Verif.W.C84_used",
    "Verif.W.C84_choice",
    "Verif.W.C84_request"
   ],
   "note": "For an idempotent Normalize that leaves en_US as it is and is never empty (C83)."
  },
  {
   "property": "C85",
   "status": "proved",
   "theorems": [
    "Verif.Fmt.C85_sprintf",
    "Verif.Fmt.C85_format",
    "Verif.Fmt.C85_fits",
    "Verif.Fmt.C85_any_order"
   ],
   "note": "How one argument is rendered is a parameter. Widths and precisions given by * are not part of the messages considered here."
  },
  {
   "property": "C86",
   "status": "proved",
   "theorems": [
    "Verif.Tr.C86_extend",
    "Verif.Tr.C86_truncated",
    "Verif.Tr.C86_refused",
    "Verif.Tr.C86_saved",
    "Verif.Tr.C86_po"
   ],
   "note": "Contents are byte strings; a reader that fails is not considered here."
  },
  {
   "property": "C87",
   "status": "proved",
   "theorems": [
    "Verif.Tr.C87_entries",
    "Verif.Tr.C87_no_loss",
    "Verif.Tr.C87_stable",
    "Verif.Tr.C87_same_lookups",
    "Verif.Tr.C87_two_headers",
    "Verif.Tr.C87_mo",
    "Verif.Tr.C87_mo_to_po",
    "Verif.Tr.C87_mo_conditions"
   ],
   "note": "MO files below 4 GiB. P (which characters are printable) is a parameter, false for the two line ends."
  },
  {
   "property": "C88",
   "status": "proved",
   "theorems": [
    "Verif.W.C88_provenance",
    "Verif.W.C88_blame",
    "Verif.W.C88_panics",
    "Verif.W.C88_no_panic"
   ],
   "note": "Nil receivers and values not made by NewTranslations are outside the model (see Model/World)."
  },
  {
   "property": "C89",
   "status": "proved",
   "theorems": [
    "Verif.Tr.C89_refused",
    "Verif.Tr.C89_message",
    "Verif.Tr.C89_unique",
    "Verif.Tr.C89_cut"
   ],
   "note": "bytes.Reader.Seek does not fail for the offsets in question; binary.Read is io.ReadFull of the size of its argument."
  },
  {
   "property": "C90",
   "status": "proved",
   "theorems": [
    "Verif.W.C90_machine"
   ],
   "note": "Translators added to a domain object handed out by Get or GetOrNoop are the subject of C78 and left out here."
  },
  {
   "property": "C91",
   "status": "proved",
   "theorems": [
    "Verif.Literal.C91_unquote",
    "Verif.Literal.C91_quotes",
    "Verif.Literal.C91_message"
   ],
   "note": "strconv.Unquote is modelled after the Go 1.23 source; the theorem ties that model to the grammar of the Go specification."
  },
  {
   "property": "C92",
   "status": "proved",
   "theorems": [
    "Verif.Tr.C92_joined",
    "Verif.Tr.C92_lookups"
   ],
   "note": "An example shows what a continuation line at the beginning of the second text does."
  },
  {
   "property": "C93",
   "status": "proved",
   "theorems": [
    "Verif.Tr.C93_line_end",
    "Verif.Tr.C93_torn",
    "Verif.Tr.C93_hazard"
   ],
   "note": "Cuts inside comments and inside the white space at the end of a line are read as if at the end of the line; inside the first line a cut is covered by putting a line end before it (C24)."
  },
  {
   "property": "C94",
   "status": "proved",
   "theorems": [
    "Verif.Fmt.C94_sprintf",
    "Verif.Fmt.C94_format"
   ],
   "note": "Package fmt's loop is part of the model (Model/Fmt.lean). Verbs are letters; an index directly before digits or a point is not of this form (fmt reports BADINDEX)."
  },
  {
   "property": "C95",
   "status": "proved",
   "theorems": [
    "Verif.Glob.C95_match_bad",
    "Verif.Glob.C95_match_sound",
    "Verif.Glob.C95_match_complete",
    "Verif.Glob.C95_match_exact",
    "Verif.Glob.C95_glob_bad",
    "Verif.Glob.C95_glob_sound",
    "Verif.Glob.C95_glob_complete",
    "Verif.Glob.C95_glob_exact",
    "Verif.Glob.C95_glob_plain",
    "Verif.Glob.C95_glob_nodup",
    "Verif.Glob.C95_glob_order",
    "Verif.Xt.C95_run_nothing",
    "Verif.Xt.C95_run_bad"
   ],
   "note": "path/filepath's Match and Glob (Unix) are part of the model (Model/Glob.lean), the operating system is a parameter. Which names match is exact for ASCII names and for patterns without ? and sets; for other names it lies between the two readings of ?."
  },
  {
   "property": "C96",
   "status": "proved",
   "theorems": [
    "Verif.Flow.C96_pot",
    "Verif.Flow.C96_message",
    "Verif.Flow.C96_before",
    "Verif.Flow.C96_again",
    "Verif.Flow.C96_more"
   ],
   "note": "Puts C58, C76, C79, C81 and C95 together, with Go's parser, Glob and character classes in the place of the parameters of a run (structure System). Named true and Named false are the two readings of C95, which agree for ASCII names. Assumed: no line breaks in the names of input files and no EOT byte in contexts (Clean)."
  },
  {
   "property": "C97",
   "status": "proved",
   "theorems": [
    "Verif.Xt.C97_run",
    "Verif.Xt.C97_named",
    "Verif.Xt.C97_silent",
    "Verif.Xt.C97_keyword",
    "Verif.Xt.C97_output",
    "Verif.Xt.C97_pattern",
    "Verif.Xt.C97_panic",
    "Verif.Xt.C97_english"
   ],
   "note": "Messages are phrases (texts with places); that Sprintf fills the places is proved from C94. What %+v shows of an error, and the texts of errors of the system and of the template parser, are parameters. Assumed: no EOT byte in contexts. Debug output goes to stdout and is not part of this."
  },
  {
   "property": "C98",
   "status": "proved",
   "theorems": [
    "Verif.Xt.C98_chinese",
    "Verif.Xt.C98_other",
    "Verif.Xt.C98_path",
    "Verif.Xt.C98_complete",
    "Verif.Xt.C98_speaks",
    "Verif.Xt.C98_lang"
   ],
   "note": "The embedded PO file is in the model byte by byte and read by the model of the PO reader (evaluated by the kernel; this is one fixed file of the program, not a sample). The Chinese texts in the specification are a separate table. The empty message (the header) is excluded in C98_chinese. C98_complete is about the finite list of messages in the code."
  },
  {
   "property": "C99",
   "status": "proved",
   "theorems": [
    "Verif.Xt.C99_kinds",
    "Verif.Xt.C99_usage",
    "Verif.Xt.C99_stderr",
    "Verif.Xt.C99_refines",
    "Verif.Xt.C99_headline"
   ],
   "note": "Assumed: braces are printable (strconv.IsPrint is a parameter). For -v before anything else nothing is written to stderr even if other flags are missing. The model of package flag follows Go 1.23."
  },
  {
   "property": "C100",
   "status": "proved",
   "theorems": [
    "Verif.Http.C100_cookie",
    "Verif.Http.C100_order",
    "Verif.Http.C100_accept",
    "Verif.Http.C100_request"
   ],
   "note": "net/http (Go 1.23) and x/text v0.23.0 are modelled from their documented releases, they are not in /repo. Parameters: language.Parse, acceptFallback, ParseFloat (assumed to reject the empty text, and 0 < 1), the matcher (index in range). q=NaN is outside the model."
  },
  {
   "property": "C101",
   "status": "proved",
   "theorems": [
    "Verif.Fmt.C101_shows",
    "Verif.Fmt.C101_width",
    "Verif.Fmt.C101_reads",
    "Verif.Fmt.C101_quoted",
    "Verif.Fmt.C101_plain",
    "Verif.Fmt.C101_extra",
    "Verif.Fmt.C101_star",
    "Verif.Fmt.C101_format"
   ],
   "note": "package fmt (Go 1.23: format.go and print.go) is modelled from its documented release, it is not in /repo. Other signed and unsigned integer types look like int and uint but for their type name in bad-verb reports; floats, composite values and values with methods stay with the parameter of C10, C11 and C94. unicode.IsPrint and the quoting of one character (%q of a number) are parameters."
  },
  {
   "property": "C102",
   "status": "proved",
   "theorems": [
    "Verif.Xt.C102_lines",
    "Verif.Xt.C102_announced",
    "Verif.Xt.C102_verdicts",
    "Verif.Xt.C102_one",
    "Verif.Xt.C102_run",
    "Verif.Xt.C102_early",
    "Verif.Xt.C102_quiet",
    "Verif.Xt.C102_same",
    "Verif.Xt.C102_main",
    "Verif.Xt.C102_unreadable"
   ],
   "note": "how often the lines on pipelines, commands and arguments (steps on the way to a verdict) occur is not stated, only how they look; names of templates, positions of commands and %#v of nodes are arbitrary texts."
  },
  {
   "property": "C103",
   "status": "proved",
   "theorems": [
    "Verif.Plural.C103_same",
    "Verif.Plural.C103_quiet",
    "Verif.Plural.C103_lines",
    "Verif.Plural.C103_value",
    "Verif.Plural.C103_count"
   ],
   "note": "what is printed for a text with syntax errors is the subject of C133."
  },
  {
   "property": "C104",
   "status": "proved",
   "theorems": [
    "Verif.Write.C104_once",
    "Verif.Write.C104_saved",
    "Verif.Write.C104_po",
    "Verif.Write.C104_pot",
    "Verif.Write.C104_mo",
    "Verif.Write.C104_file",
    "Verif.Write.C104_pieces",
    "Verif.Write.C104_sink"
   ],
   "note": "write(2) is assumed to return -1 with an error number, or how many bytes it took; what happens to the bytes after that (caches, crashes) is outside."
  },
  {
   "property": "C105",
   "status": "proved",
   "theorems": [
    "Verif.Read.C105_all",
    "Verif.Read.C105_load",
    "Verif.Read.C105_opened",
    "Verif.Read.C105_file",
    "Verif.Read.C105_embed",
    "Verif.Read.C105_embedded",
    "Verif.Read.C105_possible",
    "Verif.Read.C105_template",
    "Verif.Read.C105_saved"
   ],
   "note": "The file does not change while it is read; read(2) is assumed to return -1 with an error number, or how many bytes it put into the buffer, none only at the end."
  },
  {
   "property": "C106",
   "status": "proved",
   "theorems": [
    "Verif.Plural.C106_cause",
    "Verif.Plural.C106_value",
    "Verif.Plural.C106_same",
    "Verif.Plural.C106_malformed"
   ],
   "note": "What ANTLR reports for a malformed text, and the tree it makes of it, are arbitrary here; they are determined in C111."
  },
  {
   "property": "C107",
   "status": "proved",
   "theorems": [
    "Verif.Tr.C107_same",
    "Verif.Tr.C107_bounded",
    "Verif.Tr.C107_success",
    "Verif.Tr.C107_saved",
    "Verif.Tr.C107_quadratic",
    "Verif.Tr.C107_greedy",
    "Verif.Tr.C107_int"
   ],
   "note": "The second buffer of the same length that binary.Read makes is not counted."
  },
  {
   "property": "C108",
   "status": "proved",
   "theorems": [
    "Verif.Conc.C108_holds",
    "Verif.Conc.C108_quiet",
    "Verif.Conc.C108_stays",
    "Verif.Conc.C108_unbounded"
   ],
   "note": "GetUserLang calls language.Make itself and does not fill the cache; Match does, with whatever names it is given."
  },
  {
   "property": "C109",
   "status": "proved",
   "theorems": [
    "Verif.Time.C109_calendar",
    "Verif.Time.C109_civil",
    "Verif.Time.C109_stamp",
    "Verif.Time.C109_unique",
    "Verif.Time.C109_back",
    "Verif.Time.C109_seconds",
    "Verif.Time.C109_order",
    "Verif.Time.C109_header",
    "Verif.Time.C109_layout"
   ],
   "note": "Package time of Go 1.23 is modelled from its source, with the cutting of layouts into their parts; the clock and the offset are parameters."
  },
  {
   "property": "C110",
   "status": "proved",
   "theorems": [
    "Verif.Xt.C110_line",
    "Verif.Xt.C110_empty",
    "Verif.Xt.C110_run"
   ],
   "note": "`strconv.IsPrint` is a parameter that accepts printable ASCII and not the line end."
  },
  {
   "property": "C111",
   "status": "proved",
   "theorems": [
    "Verif.Antlr.C111_reported",
    "Verif.Antlr.C111_tree",
    "Verif.Antlr.C111_eval",
    "Verif.Antlr.C111_same",
    "Verif.Antlr.C111_error"
   ],
   "note": "`DefaultErrorStrategy` and the token stream of the ANTLR runtime (v4.13.0) are modelled from knowledge of the runtime, which is not in the repository. C111_error assumes that the text is shorter than 2^63 - 1 bytes."
  },
  {
   "property": "C112",
   "status": "proved",
   "theorems": [
    "Verif.Antlr.C112_first",
    "Verif.Antlr.C112_unique"
   ],
   "note": "The error strategy of the ANTLR runtime is modelled as for C111. The specification uses only the grammar (Spec/Viable) and the lexemes (Spec/Lexeme)."
  },
  {
   "property": "C113",
   "status": "proved",
   "theorems": [
    "Verif.Antlr.C113_told",
    "Verif.Antlr.C113_count",
    "Verif.Antlr.C113_size",
    "Verif.Antlr.C113_any"
   ],
   "note": "The error strategy of the ANTLR runtime is modelled as for C111. C112 says more about the first report; that every later report names what is wanted at its place is not claimed, because after a recovery the tokens in front need not begin an expression."
  },
  {
   "property": "C114",
   "status": "proved",
   "theorems": [
    "Verif.Word.C114_lookup",
    "Verif.Word.C114_agree",
    "Verif.Word.C114_differs",
    "Verif.Word.C114_keywords",
    "Verif.Word.C114_mo_saved",
    "Verif.Word.C114_mo_read",
    "Verif.Word.C114_mo_good",
    "Verif.Word.C114_mo_panic"
   ],
   "note": "Lengths of strings and slices are taken to fit in an int. Memory exhaustion is not modelled."
  },
  {
   "property": "C115",
   "status": "proved",
   "theorems": [
    "Verif.Antlr.C115_value",
    "Verif.Antlr.C115_whole",
    "Verif.Antlr.C115_right",
    "Verif.Antlr.C115_colon"
   ],
   "note": "Calculator in postfix notation (Calculates), independent of the tree walk; C115_value: outcome exists, is unique and is what Eval returns; C115_whole: agrees with the value of whole expressions; C115_right, C115_colon: two kinds of gaps. Which tree recovery puts together is in the model only (parseText), with the examples of C111."
  },
  {
   "property": "C116",
   "status": "proved",
   "theorems": [
    "Verif.GnuPo.C116_agree",
    "Verif.GnuPo.C116_written",
    "Verif.GnuPo.C116_saved",
    "Verif.GnuPo.C116_field",
    "Verif.GnuPo.C116_pot",
    "Verif.GnuPo.C116_po",
    "Verif.GnuPo.C116_text",
    "Verif.GnuPo.C116_read",
    "Verif.GnuPo.C116_untranslated"
   ],
   "note": "Spec/GnuPo.lean states strings and files of GNU gettext as inductive relations, written after its lexer and grammar and independent of the model; obsolete and previous messages and unusual white space are left out of that grammar. C116_saved is an equivalence. `P` is strconv.IsPrint, of which only its values on ASCII are used."
  },
  {
   "property": "C117",
   "status": "proved",
   "theorems": [
    "Verif.Libintl.C117_sorted",
    "Verif.Libintl.C117_iff",
    "Verif.Libintl.C117_saved",
    "Verif.Libintl.C117_form",
    "Verif.Libintl.C117_musl",
    "Verif.Libintl.C117_plain"
   ],
   "note": "Spec/MoLookup.lean states the lookups of the two C libraries after their published sources, on the bytes of the file. C117_sorted and C117_iff hold for every file with the layout of C33; C117_saved is the equivalence for saved files; C117_plain composes with C34."
  },
  {
   "property": "C118",
   "status": "proved",
   "theorems": [
    "Verif.Tr.C118_order",
    "Verif.Tr.C118_saved",
    "Verif.Tr.C118_read",
    "Verif.Tr.C118_written",
    "Verif.Tr.C118_conditions"
   ],
   "note": "Spec/Pieces.lean says what a piece is; Defines and Headed are those of C92. The text of the joined pieces is parsed by the grammar of Spec/Po.lean."
  },
  {
   "property": "C119",
   "status": "proved",
   "theorems": [
    "Verif.Tr.C119_size",
    "Verif.Tr.C119_tight"
   ],
   "note": "Spec/PoSize.lean defines sizes. Counts the bytes of the texts kept, not Go's headers, maps and slack."
  },
  {
   "property": "C120",
   "status": "proved",
   "theorems": [
    "Verif.Antlr.C120_same",
    "Verif.Antlr.C120_levels",
    "Verif.Antlr.C120_enough",
    "Verif.Antlr.C120_tokens",
    "Verif.Antlr.C120_nots",
    "Verif.Antlr.C120_over",
    "Verif.Antlr.C120_opens"
   ],
   "note": "Model/EvalStack.lean is the parser with error recovery and the tree walk with a number of calls left; Spec/EvalStack.lean counts calls and levels of a tree. Only calls of exp, Primary and Start_ and of Walk are counted, not those of the runtime within them, nor bytes of stack."
  },
  {
   "property": "C121",
   "status": "proved",
   "theorems": [
    "Verif.Xt.C121_fields",
    "Verif.Xt.C121_back",
    "Verif.Xt.C121_spaces",
    "Verif.Xt.C121_fuzzy",
    "Verif.Xt.C121_line_end",
    "Verif.Xt.C121_read",
    "Verif.Xt.C121_run",
    "Verif.Xt.C121_now"
   ],
   "note": "Spec/PotHeader.lean; the date is the text of C109, which has no line end (C121_now)."
  },
  {
   "property": "C122",
   "status": "proved",
   "theorems": [
    "Verif.Tr.C122_pieces",
    "Verif.Tr.C122_inner",
    "Verif.Tr.C122_once",
    "Verif.Tr.C122_cost"
   ],
   "note": "Model/WrapCost.lean counts the nested calls of split0 and the pieces appended to slices; the copying by which append enlarges a slice is not counted."
  },
  {
   "property": "C123",
   "status": "proved",
   "theorems": [
    "Verif.Py.C123_saved",
    "Verif.Py.C123_untranslated",
    "Verif.Py.C123_noheader"
   ],
   "note": "Spec/PyMo.lean renders GNUTranslations._parse for little-endian files (SaveAsMo writes no others); decoding and what the header text says about the character set are parameters, so that parsing the plural rule, which may also raise, is in the parameter."
  },
  {
   "property": "C124",
   "status": "proved",
   "theorems": [
    "Verif.Msgfmt.C124_compiled",
    "Verif.Msgfmt.C124_fuzzy"
   ],
   "note": "Spec/Msgfmt.lean says which messages msgfmt keeps, after msgfmt.c and read-po.c; conversion of character sets and strings that depend on the system are not described."
  },
  {
   "property": "C125",
   "status": "proved",
   "theorems": [
    "Verif.Libintl.C125_same",
    "Verif.Libintl.C125_beyond",
    "Verif.Libintl.C125_unique",
    "Verif.Libintl.C125_usual",
    "Verif.Libintl.C125_programs",
    "Verif.Libintl.C125_norule"
   ],
   "note": "Spec/LibintlPlural.lean describes EXTRACT_PLURAL_EXPRESSION, the scanner of plural.y, plural_eval and plural_lookup after libintl's sources; the LALR parser of plural.y is described by the precedences it declares, and 64-bit unsigned long is assumed. Character set conversion is not described."
  },
  {
   "property": "C126",
   "status": "proved",
   "theorems": [
    "Verif.Tr.C126_text",
    "Verif.Tr.C126_tight",
    "Verif.Tr.C126_po",
    "Verif.Tr.C126_pot",
    "Verif.Tr.formWords_ten"
   ],
   "note": "Sizes of comments and texts are those of Spec/PoSize.lean. strconv.Quote is modelled after Go's sources in Model/Quote.lean with the printability table as a parameter."
  },
  {
   "property": "C127",
   "status": "proved",
   "theorems": [
    "Verif.Tr.C127_read",
    "Verif.Tr.C127_each",
    "Verif.Tr.C127_whole",
    "Verif.Tr.C127_short",
    "Verif.Tr.C127_lost",
    "Verif.Tr.C127_wrong",
    "Verif.Tr.C127_edge"
   ],
   "note": "int has 64 bits and memory is not limited, as in the model of SaveAsMo. Generalises C30, whose file is below 4 GiB."
  },
  {
   "property": "C128",
   "status": "proved",
   "theorems": [
    "Verif.GnuFlow.C128_unique",
    "Verif.GnuFlow.C128_back",
    "Verif.GnuFlow.C128_pot",
    "Verif.GnuFlow.C128_run",
    "Verif.GnuFlow.C128_shown",
    "Verif.GnuFlow.C128_rest",
    "Verif.GnuFlow.C128_flow"
   ],
   "note": "GNU gettext is a specification here (Spec/GnuPo), written after its lexer and grammar; obsolete and previous messages are left out. That the translator's file may have no carriage return is the condition of C116."
  },
  {
   "property": "C129",
   "status": "proved",
   "theorems": [
    "Verif.W.C129_accepted",
    "Verif.W.C129_mo",
    "Verif.GnuFlow.C129_compiled"
   ],
   "note": "msgfmt is the specification of C124 (Compiled), GNU gettext's reading of PO files that of C116."
  },
  {
   "property": "C130",
   "status": "proved",
   "theorems": [
    "Verif.Tr.C130_selects",
    "Verif.Tr.C130_shown",
    "Verif.Tr.C130_checked",
    "Verif.Tr.C130_rules",
    "Verif.Tr.C130_generated"
   ],
   "note": "In the first four, for expressions that go through ANTLR, it is a condition that ANTLR reports nothing about the tokens; C130_generated has no such condition, as C70 proves it for the generated tables."
  },
  {
   "property": "C131",
   "status": "proved",
   "theorems": [
    "Verif.Tr.C131_front",
    "Verif.Tr.C131_between",
    "Verif.Tr.C131_behind",
    "Verif.Tr.C131_obsolete",
    "Verif.Tr.C131_inside"
   ],
   "note": "C131_inside: for any texts before and behind, when the translation is one line."
  },
  {
   "property": "C132",
   "status": "proved",
   "theorems": [
    "Verif.Tr.C132_foreign",
    "Verif.Tr.C132_mark",
    "Verif.Tr.C132_utf8",
    "Verif.Tr.C132_alone",
    "Verif.Tr.C132_merged"
   ],
   "note": "C132_alone is proved for a text of one message."
  },
  {
   "property": "C133",
   "status": "proved",
   "theorems": [
    "Verif.Antlr.C133_same",
    "Verif.Antlr.C133_quiet",
    "Verif.Antlr.C133_lines",
    "Verif.Antlr.C133_whole"
   ],
   "note": "The text shown for a pair of parentheses in a malformed expression (with dropped and made-up tokens) is a parameter; for an expression without gaps it is the characters there."
  }
 ]
}
