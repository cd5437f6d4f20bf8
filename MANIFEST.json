{
 "claims": [
  {
   "property": "C01",
   "status": "proved",
   "theorems": [
    "Osv.C01_range_intervals",
    "Osv.C01_event_order_irrelevant",
    "Osv.C01_different_versions",
    "Osv.C01_is_affected",
    "Osv.C01_ties_are_order_dependent"
   ],
   "note": "For every sort routine satisfying the sort.Slice contract and every lawful comparator. With tied versions the order matters; C01_ties_are_order_dependent shows why the quantifier excludes ties."
  },
  {
   "property": "C02",
   "status": "partial",
   "theorems": [
    "Osv.C02_refines_pure_partial",
    "Osv.C02_history_independent_partial",
    "Osv.C02_same_order_ties_allowed_partial",
    "Osv.C02_mixed_orders_with_ties_interfere",
    "Osv.C02_counterexample"
   ],
   "note": "Proved for ranges without ties between an introduction and another event (any mix of ecosystems), and with ties when all checks use one version order. False in general: C02_mixed_orders_with_ties_interfere gives a database where checking one package changes the answer for the next."
  },
  {
   "property": "C03",
   "status": "partial",
   "theorems": [
    "Osv.C03_sound",
    "Osv.C03_complete_partial",
    "Osv.C03_end_to_end_partial",
    "Osv.C03_suffix_finds_nothing",
    "Osv.C03_suffixed_ecosystem_never_matches",
    "Osv.C03_counterexample"
   ],
   "note": "Soundness is unconditional. Completeness is proved for packages whose ecosystem has no suffix; advisories are filed under the ecosystem without suffix but looked up with it, so a package with a suffixed ecosystem gets nothing (C03_suffix_finds_nothing, C03_counterexample)."
  },
  {
   "property": "C04",
   "status": "proved",
   "theorems": [
    "Osv.C04_no_duplicates",
    "Osv.C04_ids_nodup"
   ],
   "note": "Every load sequence, every alias graph."
  },
  {
   "property": "C05",
   "status": "proved",
   "theorems": [
    "Osv.C05_filter_transparent",
    "Osv.C05_check_transparent"
   ],
   "note": "Every advisory set and name list."
  },
  {
   "property": "C06",
   "status": "proved",
   "theorems": [
    "Osv.C06_never_reported",
    "Osv.C06_never_suppresses"
   ],
   "note": "Withdrawn advisories can be removed from the database without changing any result."
  },
  {
   "property": "C07",
   "status": "proved",
   "theorems": [
    "Osv.C07_explicit_version",
    "Osv.C07_versionless",
    "Osv.C07_empty_entries",
    "Osv.C07_only_matching_entries"
   ],
   "note": "Follows from a full characterisation of IsAffected."
  },
  {
   "property": "C08",
   "status": "partial",
   "theorems": [
    "Osv.C08_any_range_partial",
    "Osv.C08_union_partial",
    "Osv.C08_exact",
    "Osv.C08_only_matching_ranges",
    "Osv.C08_git_range_hides_others",
    "Osv.C08_counterexample"
   ],
   "note": "False as stated: a GIT range listed before the matching range stops the loop (C08_git_range_hides_others). Proved when no range of another type precedes the matching one; C08_exact is the exact rule for all advisories with ordered events."
  },
  {
   "property": "C09",
   "status": "proved",
   "theorems": [
    "Osv.C09_normalized_name",
    "Osv.C09_idempotent",
    "Osv.C09_same_name_iff",
    "Osv.C09_other_verbatim"
   ],
   "note": "NormalizedName evaluated through the regular-expression engine model equals an independent PEP 503 function. Lower-casing is modelled for ASCII."
  },
  {
   "property": "C10",
   "status": "proved",
   "theorems": [
    "Osv.C10_ecosystem_match",
    "Osv.C10_reflexive",
    "Osv.C10_symmetric",
    "Osv.C10_with_suffixes",
    "Osv.C10_affects_ecosystem",
    "Osv.C10_not_transitive"
   ],
   "note": "Also shows that the relation is not transitive."
  },
  {
   "property": "C11",
   "status": "proved",
   "theorems": [
    "Osv.C11_length",
    "Osv.C11_positional",
    "Osv.C11_aligned",
    "Osv.C11_pure"
   ],
   "note": "C11_length and C11_positional hold in every state; C11_aligned removes the dependence on earlier packages for well-formed ranges (see C02)."
  },
  {
   "property": "C12",
   "status": "proved",
   "theorems": [
    "Osv.C12_listing",
    "Osv.C12_order_independent"
   ],
   "note": "Any iteration order of the index map."
  },
  {
   "property": "C13",
   "status": "proved",
   "theorems": [
    "Osv.C13_concat",
    "Osv.C13_sizes",
    "Osv.C13_block",
    "Osv.C13_positions",
    "Osv.C13_total"
   ],
   "note": "Every batch size of at least 1."
  },
  {
   "property": "C14",
   "status": "proved",
   "theorems": [
    "Osv.C14_any_failure_fails",
    "Osv.C14_no_failure_succeeds",
    "Osv.C14_batch_ok_iff",
    "Osv.C14_aligned",
    "Osv.C14_terminates"
   ],
   "note": "Goroutines are a state machine with a bounded number of running tasks; every reachable final state is covered and a final state is always reached."
  },
  {
   "property": "C15",
   "status": "proved",
   "theorems": [
    "Osv.C15_one_request_per_id",
    "Osv.C15_details",
    "Osv.C15_answered"
   ],
   "note": "Detail requests fail or succeed in any order; a partially decoded record is used when its ID matches, as in the code."
  },
  {
   "property": "C16",
   "status": "proved",
   "theorems": [
    "Osv.C16_by_version",
    "Osv.C16_by_commit",
    "Osv.C16_empty",
    "Osv.C16_batch"
   ],
   "note": "Characterises the payload for every package."
  },
  {
   "property": "C17",
   "status": "proved",
   "theorems": [
    "Osv.C17_api_guards",
    "Osv.C17_unsupported",
    "Osv.C17_identity"
   ],
   "note": "API databases in offline mode or with a batch size below 1 and unsupported types are always errors; the identity of a loaded database is that of its config."
  },
  {
   "property": "C18",
   "status": "proved",
   "theorems": [
    "Osv.C18_offline",
    "Osv.C18_offline_exact",
    "Osv.C18_not_modified",
    "Osv.C18_download",
    "Osv.C18_ok_cases",
    "Osv.C18_panic_iff"
   ],
   "note": "Every history of runs against every server. A 304 answer to an unconditional request (a server fault) makes the code dereference a nil cache; C18_panic_iff says this is the only crash (see also C63)."
  },
  {
   "property": "C19",
   "status": "proved",
   "theorems": [
    "Osv.C19_crash",
    "Osv.C19_prefix",
    "Osv.C19_history"
   ],
   "note": "Every prefix of the file being written; relies on the JSON syntax model (a proper prefix of a document is never a document)."
  },
  {
   "property": "C20",
   "status": "partial",
   "theorems": [
    "Osv.C20_exact_partial",
    "Osv.C20_directory_partial",
    "Osv.C20_prefix",
    "Osv.C20_sibling_directory"
   ],
   "note": "Proved except for sibling directories: the path check is a plain prefix test, so a working directory db also accepts db2 (C20_sibling_directory)."
  },
  {
   "property": "C21",
   "status": "partial",
   "theorems": [
    "Osv.C21_exact_partial",
    "Osv.C21_fails_iff",
    "Osv.C21_diagnostics",
    "Osv.C21_vanishing_entry"
   ],
   "note": "Proved when no entry disappears between listing and reading; a vanishing entry is silently skipped (C21_vanishing_entry)."
  },
  {
   "property": "C22",
   "status": "partial",
   "theorems": [
    "Osv.C22_exit_zero_partial",
    "Osv.C22_unlistable_directory",
    "Osv.C22_database_diagnostics"
   ],
   "note": "The full statement is false: a directory that cannot be listed is skipped without an error (C22_unlistable_directory), and databases print diagnostics to stderr without counting them as errors (C22_database_diagnostics). Everything else is proved."
  },
  {
   "property": "C23",
   "status": "proved",
   "theorems": [
    "Osv.C23_exit_code",
    "Osv.C23_failures",
    "Osv.C23_exit_128",
    "Osv.C23_information",
    "Osv.C23_codes"
   ],
   "note": "Exit code characterised by the trace of a run for every environment and command line; 128 characterised by the arguments and paths alone."
  },
  {
   "property": "C24",
   "status": "proved",
   "theorems": [
    "Osv.C24_json",
    "Osv.C24_results",
    "Osv.C24_no_results",
    "Osv.C24_text"
   ],
   "note": "Exactly one JSON document, nothing else on stdout, results in order; text mode prints the same results."
  },
  {
   "property": "C25",
   "status": "proved",
   "theorems": [
    "Osv.C25_no_duplicates",
    "Osv.C25_sound",
    "Osv.C25_complete"
   ],
   "note": "Every number of databases and every alias relation."
  },
  {
   "property": "C26",
   "status": "proved",
   "theorems": [
    "Osv.C26_split",
    "Osv.C26_merge_independent",
    "Osv.C26_monotone",
    "Osv.C26_run"
   ],
   "note": "Split by ignore list, merged list independent of it, known list shrinks monotonically; the run-level theorem lifts this to whole reports."
  },
  {
   "property": "C27",
   "status": "proved",
   "theorems": [
    "Osv.C27_report",
    "Osv.C27_keeps_results",
    "Osv.C27_error_printed"
   ],
   "note": "A failing database equals an absent one for the report, and an error is printed."
  },
  {
   "property": "C28",
   "status": "proved",
   "theorems": [
    "Osv.C28_written",
    "Osv.C28_converges"
   ],
   "note": "Contents written, and a second run with the written config reports nothing known."
  },
  {
   "property": "C29",
   "status": "partial",
   "theorems": [
    "Osv.C29_update_partial",
    "Osv.C29_databases_partial",
    "Osv.C29_crash_loses_databases",
    "Osv.C29_crash_counterexample",
    "Osv.C29_after_is_reached",
    "Osv.C29_files_partial"
   ],
   "note": "Fields other than the ignore list survive a complete write. A write that stops after truncation loses them (C29_crash_loses_databases). The YAML codec is abstract, with a round-trip law; C85 derives it from a law about texts and trees alone, and C102 proves it for a model of the library."
  },
  {
   "property": "C30",
   "status": "proved",
   "theorems": [
    "Osv.C30_unique",
    "Osv.C30_firsts",
    "Osv.C30_run"
   ],
   "note": "Databases to load are the first of each identifier, in order; each readable lockfile is checked once per database."
  },
  {
   "property": "C31",
   "status": "partial",
   "theorems": [
    "Osv.C31_no_hash_partial",
    "Osv.C31_loaded_partial",
    "Osv.C31_iff",
    "Osv.C31_fragment_counterexample"
   ],
   "note": "False when a URL contains #: C31_fragment_counterexample. Proved for URLs without #; C31_iff says exactly which databases share an identifier."
  },
  {
   "property": "C32",
   "status": "partial",
   "theorems": [
    "Osv.C32_checked_partial",
    "Osv.C32_exact_partial",
    "Osv.C32_shared_config_counterexample",
    "Osv.C32_hidden_vulnerability"
   ],
   "note": "False with both --no-config and --no-config-databases: C32_shared_config_counterexample and C32_hidden_vulnerability. Proved for all other flags."
  },
  {
   "property": "C33",
   "status": "proved",
   "theorems": [
    "Osv.C33_split",
    "Osv.C33_found",
    "Osv.C33_parsed",
    "Osv.C33_run"
   ],
   "note": "From the argument to the shown result; also covers prefixes on directories and the CSV parsers."
  },
  {
   "property": "C34",
   "status": "proved",
   "theorems": [
    "Osv.C34_directory",
    "Osv.C34_listing_order",
    "Osv.C34_exact",
    "Osv.C34_arguments_in_order",
    "Osv.C34_no_descent",
    "Osv.C34_errors",
    "Osv.C34_run"
   ],
   "note": "Exact set, order, independence of the listing order, and non-interference of all paths other than the arguments; exact errors."
  },
  {
   "property": "C35",
   "status": "proved",
   "theorems": [
    "Osv.C35_precedence",
    "Osv.C35_broken_config_fails",
    "Osv.C35_explicit_config"
   ],
   "note": "Precedence, failure exactly when the chosen file is broken, and the effect on the whole run."
  },
  {
   "property": "C36",
   "status": "proved",
   "theorems": [
    "Osv.C36_type",
    "Osv.C36_kept",
    "Osv.C36_dropped",
    "Osv.C36_config",
    "Osv.C36_nothing_lost"
   ],
   "note": "URL validity (net/url) is a parameter."
  },
  {
   "property": "C37",
   "status": "proved",
   "theorems": [
    "Osv.C37_record",
    "Osv.C37_accepted",
    "Osv.C37_row"
   ],
   "note": "Record level; splitting the text into records is outside this theorem."
  },
  {
   "property": "C38",
   "status": "proved",
   "theorems": [
    "Osv.C38_sorted",
    "Osv.C38_csv",
    "Osv.C38_deterministic"
   ],
   "note": "Every sort routine satisfying the sort.Slice contract. The result is unique unless two different packages share name and version."
  },
  {
   "property": "C39",
   "status": "partial",
   "theorems": [
    "Osv.C39_pubspec",
    "Osv.C39_renv",
    "Osv.C39_bun",
    "Osv.C39_maven",
    "Osv.C39_npm_partial",
    "Osv.C39_npm_iff",
    "Osv.C39_nuget_partial",
    "Osv.C39_pipenv_partial",
    "Osv.C39_go_partial",
    "Osv.C39_pnpm_partial",
    "Osv.C39_pnpm_iff",
    "Osv.C39_npm_counterexample",
    "Osv.C39_counterexample",
    "Osv.C39_nuget_counterexample",
    "Osv.C39_pipenv_counterexample",
    "Osv.C39_go_counterexample",
    "Osv.C39_pnpm_counterexample",
    "Osv.C39_requirements",
    "Osv.C39_nuget_keys_partial",
    "Osv.C39_nuget_iff",
    "Osv.C39_pipenv_keys_partial",
    "Osv.C39_pipenv_iff",
    "Osv.C39_go_keys_partial",
    "Osv.C39_go_iff",
    "Osv.C39_table_partial"
   ],
   "note": "For all contents and all pairs of orders. Holds without condition for pubspec.lock, renv.lock, bun.lock, pom.xml and requirements.txt. For package-lock.json it holds exactly if no two different packages share a key (C39_npm_partial, C39_npm_iff), for pnpm-lock.yaml exactly if not one key panics while another is refused (C39_pnpm_iff), for packages.lock.json, Pipfile.lock and go.mod exactly if no two different packages share a name@version key (C39_nuget_iff, C39_pipenv_iff, C39_go_iff); a counterexample for each. C39_table_partial covers the whole table of parsers at once."
  },
  {
   "property": "C40",
   "status": "proved",
   "theorems": [
    "Osv.C40_terminates",
    "Osv.C40_stable"
   ],
   "note": "Finitely many readable paths is the meaning of finite file system (path lengths are bounded by the operating system); the depth bound is the number of readable paths plus two."
  },
  {
   "property": "C41",
   "status": "partial",
   "theorems": [
    "Osv.C41_sound",
    "Osv.C41_failure",
    "Osv.C41_exact_partial",
    "Osv.C41_exact_iff",
    "Osv.C41_keys",
    "Osv.C41_counterexample"
   ],
   "note": "Soundness, failure exactly when a reachable file is unreadable, and exactness are proved for every include graph and iteration order. Exactness needs names without @, because packages are kept under name@version (C41_counterexample); C41_exact_iff is the exact condition."
  },
  {
   "property": "C42",
   "status": "partial",
   "theorems": [
    "Osv.C42_entry",
    "Osv.C42_normal_form",
    "Osv.C42_advisory_name",
    "Osv.C42_written_partial",
    "Osv.C42_marker_counterexample",
    "Osv.C42_extras_counterexample",
    "Osv.C42_other_operators"
   ],
   "note": "Every line is characterised (C42_entry). The full claim is false for environment markers with another operator and for white space before extras (C42_marker_counterexample, C42_extras_counterexample); proved for simple requirements."
  },
  {
   "property": "C43",
   "status": "proved",
   "theorems": [
    "Osv.C43_continuation",
    "Osv.C43_joined",
    "Osv.C43_end_of_file",
    "Osv.C43_comment",
    "Osv.C43_file"
   ],
   "note": "Regular expressions characterised for all lines; joining is a relation with existence and uniqueness."
  },
  {
   "property": "C44",
   "status": "proved",
   "theorems": [
    "Osv.C44_blocks",
    "Osv.C44_unique",
    "Osv.C44_packages",
    "Osv.C44_errors",
    "Osv.C44_version_unique",
    "Osv.C44_written"
   ],
   "note": "Both yarn.lock formats share one block grammar; the text is split into blocks and each block read independently."
  },
  {
   "property": "C45",
   "status": "proved",
   "theorems": [
    "Osv.C45_names",
    "Osv.C45_unique"
   ],
   "note": "Grammar of descriptors with a uniqueness theorem."
  },
  {
   "property": "C46",
   "status": "partial",
   "theorems": [
    "Osv.C46_adds",
    "Osv.C46_sound",
    "Osv.C46_panic_iff",
    "Osv.C46_partial",
    "Osv.C46_kinds",
    "Osv.C46_counterexample"
   ],
   "note": "Soundness for every tree, iteration order and depth, exactness when names have @ only in front and no two different packages share a key, and the exact condition of the panic on an alias without a version (C46_panic_iff). The full claim is false: a git dependency and a dependency whose version is that commit share a key (C46_counterexample)."
  },
  {
   "property": "C47",
   "status": "partial",
   "theorems": [
    "Osv.C47_adds",
    "Osv.C47_no_panic",
    "Osv.C47_sound",
    "Osv.C47_partial",
    "Osv.C47_iff",
    "Osv.C47_root",
    "Osv.C47_counterexample"
   ],
   "note": "Soundness, absence of panics and that the root is never reported hold for every file. Completeness is false when one name and commit occurs with two versions (C47_counterexample) and is proved for all other files (C47_partial); C47_iff: it holds exactly for these files."
  },
  {
   "property": "C48",
   "status": "partial",
   "theorems": [
    "Osv.C48_selected_exists",
    "Osv.C48_selected_unique",
    "Osv.C48_applied_unique",
    "Osv.C48_applied",
    "Osv.C48_partial",
    "Osv.C48_unrequired",
    "Osv.C48_error",
    "Osv.C48_counterexample"
   ],
   "note": "golang.org/x/mod is a parameter here, and modelled in C95. Exact for every list of requirements and directives in which no replacement is replaced again by a later directive (C48_partial); otherwise the program chains directives (C48_counterexample). C48_applied gives the packages of every file, chained or not."
  },
  {
   "property": "C49",
   "status": "partial",
   "theorems": [
    "Osv.C49_names",
    "Osv.C49_version_unique",
    "Osv.C49_version_exists",
    "Osv.C49_lower",
    "Osv.C49_rule",
    "Osv.C49_reported",
    "Osv.C49_partial",
    "Osv.C49_error",
    "Osv.C49_one_effective",
    "Osv.C49_counterexample",
    "Osv.C49_newline_counterexample",
    "Osv.C49_text_counterexample"
   ],
   "note": "One package per name and which dependency wins hold for every pom (C49_names), and the lower bound for every requirement on one line (C49_lower). C49_rule and C49_reported give what is reported for every version on one line: the reference from the first ${ to the last } stands for the whole. Versions that mix text and references, or contain line breaks, are wrong (C49_counterexample, C49_newline_counterexample; C49_text_counterexample from the XML text). The decoder is a parameter here and modelled in C74."
  },
  {
   "property": "C50",
   "status": "partial",
   "theorems": [
    "Osv.C50_entries",
    "Osv.C50_unique",
    "Osv.C50_lines_unique",
    "Osv.C50_unreadable",
    "Osv.C50_written_partial",
    "Osv.C50_commit_counterexample"
   ],
   "note": "For every text, the reported packages are given by a relation on its lines (C50_entries, with uniqueness), and for files in Bundler's format they are the gems of the source sections (C50_written_partial). The full claim is false: an option such as a tag that contains GEM or GIT clears the commit of its section (C50_commit_counterexample)."
  },
  {
   "property": "C51",
   "status": "proved",
   "theorems": [
    "Osv.C51_entries",
    "Osv.C51_unique",
    "Osv.C51_errors",
    "Osv.C51_written"
   ],
   "note": "Line grammar in both directions plus uniqueness; hex entries carry their checksum in the commit field, as the code does."
  },
  {
   "property": "C52",
   "status": "proved",
   "theorems": [
    "Osv.C52_entries",
    "Osv.C52_unique",
    "Osv.C52_errors",
    "Osv.C52_error_empty",
    "Osv.C52_written"
   ],
   "note": "Line grammar in both directions plus uniqueness, and the scanner errors."
  },
  {
   "property": "C53",
   "status": "partial",
   "theorems": [
    "Osv.C53_counterexample",
    "Osv.C53_nested",
    "Osv.C53_build",
    "Osv.C53_loop",
    "Osv.C53_partial",
    "Osv.C53_key",
    "Osv.C53_commit",
    "Osv.C53_invalid_iff",
    "Osv.C53_panic_iff",
    "Osv.C53_empty",
    "Osv.C53_error",
    "Osv.C53_rule",
    "Osv.C53_trichotomy",
    "Osv.C53_rule_unique",
    "Osv.C53_reported",
    "Osv.C53_refused"
   ],
   "note": "From the decoded file (C75 has the decoding of the tree of nodes). Exact for every iteration order for keys of version 9, /name/version paths with any peers and /name@version paths with flat, unscoped peers and no build metadata (C53_partial). False for scoped peers (C53_counterexample), nested peers (C53_nested) and build metadata (C53_build). Errors and panics are characterised exactly (C53_invalid_iff, C53_panic_iff), and C53_rule and C53_reported give the reading of every other key."
  },
  {
   "property": "C54",
   "status": "partial",
   "theorems": [
    "Osv.C54_heads",
    "Osv.C54_forms",
    "Osv.C54_partial",
    "Osv.C54_panic_iff",
    "Osv.C54_untyped",
    "Osv.C54_counterexample"
   ],
   "note": "Heads are characterised with existence and uniqueness; every tuple that is not empty is read as claimed, wrongly typed files are errors. An empty tuple panics (C54_counterexample, C54_panic_iff). The conversion from JSON with comments is modelled in C77."
  },
  {
   "property": "C55",
   "status": "partial",
   "theorems": [
    "Osv.C55_forms",
    "Osv.C55_only",
    "Osv.C55_host_fragment",
    "Osv.C55_host_ref",
    "Osv.C55_registry_partial",
    "Osv.C55_registry_counterexample",
    "Osv.C55_plain",
    "Osv.C55_named",
    "Osv.C55_git_hosts",
    "Osv.C55_other_hosts",
    "Osv.C55_bad_user",
    "Osv.C55_control"
   ],
   "note": "The forms are proved in both directions. The clause about registry tarballs is false for tarballs hosted on github.com, gitlab.com or bitbucket.org, whose checksum fragment is taken for a commit (C55_registry_counterexample); proved for all other hosts."
  },
  {
   "property": "C56",
   "status": "partial",
   "theorems": [
    "Osv.C56_composer_iff",
    "Osv.C56_renv_iff",
    "Osv.C56_nuget_iff",
    "Osv.C56_npm_iff",
    "Osv.C56_pipenv_iff",
    "Osv.C56_bun_iff",
    "Osv.C56_pnpm",
    "Osv.C56_pubspec",
    "Osv.C56_yarn",
    "Osv.C56_gemfile",
    "Osv.C56_counterexample",
    "Osv.C56_npm_counterexample",
    "Osv.C56_pipenv_counterexample",
    "Osv.C56_bun_counterexample",
    "Osv.C56_pnpm_counterexample",
    "Osv.C56_partial"
   ],
   "note": "False: C56_counterexample (a document null) and one witness per further cause. The exact condition of a panic, over all contents, is proved for every parser that can panic; parsers of other formats are total functions of the model, with C56_pubspec, C56_yarn and C56_gemfile for the three places that need an argument. The reader of YAML text is a parameter."
  },
  {
   "property": "C57",
   "status": "proved",
   "theorems": [
    "Osv.C57_cargo",
    "Osv.C57_poetry",
    "Osv.C57_pdm",
    "Osv.C57_uv",
    "Osv.C57_pylock",
    "Osv.C57_pubspec",
    "Osv.C57_composer",
    "Osv.C57_renv",
    "Osv.C57_unique",
    "Osv.C57_error"
   ],
   "note": "One entry out per entry in, in order, for Cargo, poetry, pdm, uv, pylock, pubspec (from the decoded values; C75 and C76 have the decoding), composer and renv (from the JSON text)."
  },
  {
   "property": "C58",
   "status": "partial",
   "theorems": [
    "Osv.C58_counterexample",
    "Osv.C58_link",
    "Osv.C58_truncate",
    "Osv.C58_partial",
    "Osv.C58_iff",
    "Osv.C58_total",
    "Osv.C58_bounded",
    "Osv.C58_exactly_limit"
   ],
   "note": "On bytes. Proved when there is a summary, fewer than 80 characters, a space among the first 80 or only ASCII among them (C58_partial); no panic and the bound hold for all details (C58_total, C58_bounded), and C58_iff is the exact condition. False otherwise: a character may be cut in two (C58_counterexample)."
  },
  {
   "property": "C59",
   "status": "proved",
   "theorems": [
    "Osv.C59_counts",
    "Osv.C59_lines",
    "Osv.C59_summary",
    "Osv.C59_number"
   ],
   "note": "Counts, lines and summary of the text; colouring is a parameter."
  },
  {
   "property": "C60",
   "status": "proved",
   "theorems": [
    "Osv.C60_ecosystems",
    "Osv.C60_order_independent",
    "Osv.C60_package_order",
    "Osv.C60_collect"
   ],
   "note": "Every iteration order and package order."
  },
  {
   "property": "C61",
   "status": "proved",
   "theorems": [
    "Osv.C61_non_interference",
    "Osv.C61_silent",
    "Osv.C61_exit"
   ],
   "note": "Non-interference: exit code and output do not depend on configs, databases, URL checks or map orders, and no config is written."
  },
  {
   "property": "C63",
   "status": "partial",
   "theorems": [
    "Osv.C63_no_crash_partial",
    "Osv.C63_iff",
    "Osv.C63_offline",
    "Osv.C63_not_modified_without_cache"
   ],
   "note": "Proved for servers that answer 304 only to conditional requests; a 304 without a usable cache dereferences a nil pointer (C63_not_modified_without_cache)."
  },
  {
   "property": "C64",
   "status": "partial",
   "theorems": [
    "Osv.C64_sound",
    "Osv.C64_partial",
    "Osv.C64_exact_iff",
    "Osv.C64_version",
    "Osv.C64_error",
    "Osv.C64_counterexample"
   ],
   "note": "From the JSON text, for every iteration order. Soundness and completeness up to the key name@resolved hold for every file; exactness fails for names with @ (C64_counterexample) and is proved for all others (C64_partial); C64_exact_iff is the exact condition."
  },
  {
   "property": "C65",
   "status": "partial",
   "theorems": [
    "Osv.C65_panic_iff",
    "Osv.C65_partial",
    "Osv.C65_exact_iff",
    "Osv.C65_error",
    "Osv.C65_counterexample",
    "Osv.C65_collision_counterexample"
   ],
   "note": "From the JSON text, for every iteration order. A version of one byte panics (C65_counterexample, C65_panic_iff) and names with @ can hide packages (C65_collision_counterexample); proved for all other files; C65_exact_iff is the exact condition on the keys."
  },
  {
   "property": "C62",
   "status": "partial",
   "theorems": [
    "Osv.C62_partial",
    "Osv.C62_unparsable_iff",
    "Osv.C62_supported_iff",
    "Osv.C62_counterexample"
   ],
   "note": "False: semantic.MustParse (osv-scalibr, a parameter) panics on unsupported ecosystems and invalid versions (C62_counterexample). Proved when all versions that may be compared are valid (C62_partial, in every history), with the exact condition of a panic for a package version that is not valid (C62_unparsable_iff) and for validity that depends on the ecosystem only (C62_supported_iff)."
  },
  {
   "property": "C66",
   "status": "partial",
   "theorems": [
    "Osv.C66_clean_exit_partial",
    "Osv.C66_default_partial",
    "Osv.C66_reported_partial",
    "Osv.C66_counterexample"
   ],
   "note": "False for package ecosystems with a suffix (C66_counterexample). Proved with parsers, local databases and the command composed (Model/World): C66_clean_exit_partial for every required database, C66_default_partial from the discovered file on with the default databases (no condition on the ecosystem is left), C66_reported_partial for the converse. Conditions: version order laws, well-formed advisories, not both --no-config and --no-config-databases. The ignored advisory may be linked through a third one (Spec.Linked). API answers, readers of TOML, YAML and go.mod text, unzipping and advisory JSON are parameters."
  },
  {
   "property": "C67",
   "status": "proved",
   "theorems": [
    "Osv.C67_ecosystem",
    "Osv.C67_formats",
    "Osv.C67_listed",
    "Osv.C67_unknown"
   ],
   "note": "For all 21 parsers, and the listed ecosystems are those of the formats (`C67_listed`), whatever the readers of TOML and YAML and the decoder of go.mod return."
  },
  {
   "property": "C68",
   "status": "proved",
   "theorems": [
    "Osv.C68_own_ignores",
    "Osv.C68_unique",
    "Osv.C68_own_databases"
   ],
   "note": "For every run that gets past its arguments."
  },
  {
   "property": "C69",
   "status": "proved",
   "theorems": [
    "Osv.C69_reports",
    "Osv.C69_packages",
    "Osv.C69_printed"
   ],
   "note": "Written independently of the model: a reader of JSON documents (Spec/ReportJson). Times are kept as the text that is printed; nil slices may be printed as null or as an empty list."
  },
  {
   "property": "C70",
   "status": "proved",
   "theorems": [
    "Osv.C70_decoded",
    "Osv.C70_other",
    "Osv.C70_roundtrip",
    "Osv.C70_zip",
    "Osv.C70_dir"
   ],
   "note": "For documents in which no key occurs twice or differs from a field name in case only. Parsing and printing of times is a parameter."
  },
  {
   "property": "C71",
   "status": "partial",
   "theorems": [
    "Osv.C71_request",
    "Osv.C71_response",
    "Osv.C71_results_partial",
    "Osv.C71_counterexample",
    "Osv.C71_endpoints"
   ],
   "note": "Requests, responses and endpoints are exact. A batch is taken as complete although the response says that it continues on another page (C71_counterexample: next_page_token is ignored). Query strings and hosts of the URL are not modelled."
  },
  {
   "property": "C72",
   "status": "proved",
   "theorems": [
    "Osv.C72_accepted",
    "Osv.C72_help",
    "Osv.C72_rejected",
    "Osv.C72_started",
    "Osv.C72_misplaced"
   ],
   "note": "strconv.ParseInt is a parameter."
  },
  {
   "property": "C73",
   "status": "proved",
   "theorems": [
    "Osv.C73_read",
    "Osv.C73_line_ends",
    "Osv.C73_unambiguous",
    "Osv.C73_rows",
    "Osv.C73_accepted",
    "Osv.C73_packages",
    "Osv.C73_round_trip"
   ],
   "note": "encoding/csv is modelled with its default settings. Arguments with quotes that are not balanced can be read as one record together, and carriage returns before line feeds inside of fields are lost; both are stated as examples."
  },
  {
   "property": "C74",
   "status": "proved",
   "theorems": [
    "Osv.C74_read",
    "Osv.C74_unambiguous",
    "Osv.C74_names",
    "Osv.C74_elsewhere",
    "Osv.C74_reported",
    "Osv.C74_packages"
   ],
   "note": "encoding/xml is modelled from text to structs; names that are not ASCII and document type declarations are outside of the grammar. Versions are those of C49, which fails on a text (C49_text_counterexample)."
  },
  {
   "property": "C75",
   "status": "proved",
   "theorems": [
    "Osv.C75_pnpm_accepted",
    "Osv.C75_pnpm_read",
    "Osv.C75_pnpm_nothing",
    "Osv.C75_pubspec_accepted",
    "Osv.C75_pubspec_read",
    "Osv.C75_pubspec_nothing",
    "Osv.C75_config_nothing",
    "Osv.C75_config_accepted",
    "Osv.C75_config_read",
    "Osv.C75_config_load"
   ],
   "note": "From the tree of nodes to the structs. Reading the text into a tree is a parameter here, and modelled in C101; aliases are replaced, merge keys and explicit tags are left out; whether a version of pnpm-lock.yaml is a number, and 9, is a parameter."
  },
  {
   "property": "C76",
   "status": "proved",
   "theorems": [
    "Osv.C76_cargo_accepted",
    "Osv.C76_cargo_read",
    "Osv.C76_poetry_accepted",
    "Osv.C76_poetry_read",
    "Osv.C76_pdm_accepted",
    "Osv.C76_pdm_read",
    "Osv.C76_uv_accepted",
    "Osv.C76_uv_read",
    "Osv.C76_pylock_accepted",
    "Osv.C76_pylock_read",
    "Osv.C76_case_counterexample"
   ],
   "note": "From the tree of values to the packages. Reading the text into a tree is a parameter, and so is which shapes of the optional dependencies of uv.lock, which are never read, are refused. With keys that differ in case only the order of map iteration decides (C76_case_counterexample)."
  },
  {
   "property": "C77",
   "status": "proved",
   "theorems": [
    "Osv.C77_json",
    "Osv.C77_unambiguous",
    "Osv.C77_jsonc",
    "Osv.C77_plain",
    "Osv.C77_json_jsonc",
    "Osv.C77_bun",
    "Osv.C77_others",
    "Osv.C77_rejected"
   ],
   "note": "encoding/json and github.com/tidwall/jsonc are modelled on runes, the input being valid UTF-8; the limit of 10000 for the nesting of JSON is left out. More than the stated grammar is accepted in bun.lock, such as a comma alone in brackets."
  },
  {
   "property": "C78",
   "status": "proved",
   "theorems": [
    "Osv.C78_bun",
    "Osv.C78_cargo",
    "Osv.C78_poetry",
    "Osv.C78_pdm",
    "Osv.C78_uv",
    "Osv.C78_pylock",
    "Osv.C78_no_toml",
    "Osv.C78_composer",
    "Osv.C78_renv",
    "Osv.C78_nuget",
    "Osv.C78_pipenv",
    "Osv.C78_npm_v1",
    "Osv.C78_npm_v2",
    "Osv.C78_npm_v2_exact",
    "Osv.C78_no_json",
    "Osv.C78_pnpm",
    "Osv.C78_pnpm_rule",
    "Osv.C78_pnpm_bad",
    "Osv.C78_pubspec",
    "Osv.C78_pubspec_bad",
    "Osv.C78_no_yaml",
    "Osv.C78_pom",
    "Osv.C78_pom_reported",
    "Osv.C78_go",
    "Osv.C78_gemfile",
    "Osv.C78_yarn",
    "Osv.C78_mix",
    "Osv.C78_gradle",
    "Osv.C78_requirements",
    "Osv.C78_unreadable"
   ],
   "note": "The conditions on the texts are those of the properties of the single formats, where files outside of them are shown to be read wrongly."
  },
  {
   "property": "C79",
   "status": "proved",
   "theorems": [
    "Osv.C79_right_pattern",
    "Osv.C79_same_object",
    "Osv.C79_different_objects",
    "Osv.C79_stable",
    "Osv.C79_panics",
    "Osv.C79_progress",
    "Osv.C79_terminates"
   ],
   "note": "sync.Map is taken as linearizable: Load and LoadOrStore are atomic. Everywhere else the model uses patterns directly, which this property justifies."
  },
  {
   "property": "C80",
   "status": "proved",
   "theorems": [
    "Osv.C80_json",
    "Osv.C80_text",
    "Osv.C80_silent",
    "Osv.C80_json_stderr",
    "Osv.C80_version",
    "Osv.C80_ecosystems",
    "Osv.C80_nothing",
    "Osv.C80_counts",
    "Osv.C80_offline"
   ],
   "note": "Colouring, the texts of errors of the operating system, the network and the decoders, and the layout of the JSON document (C69) are parameters."
  },
  {
   "property": "C81",
   "status": "proved",
   "theorems": [
    "Osv.C81_check",
    "Osv.C81_exit_zero",
    "Osv.C81_use_api",
    "Osv.C81_complete",
    "Osv.C81_sound"
   ],
   "note": "The network and the JSON decoders of answers are parameters. Databases with the same identifier are loaded once (C31), so the theorems name the config that was loaded."
  },
  {
   "property": "C82",
   "status": "proved",
   "theorems": [
    "Osv.C82_current",
    "Osv.C82_sent_before",
    "Osv.C82_clean_exit"
   ],
   "note": "Cache paths are hashes of URLs; that different URLs have different hashes is a hypothesis. The server is trusted to know its own ETags and dates (`Serving`), and there is no cache file before the first load of the URL. Unzipping and decoding of advisories are parameters."
  },
  {
   "property": "C83",
   "status": "proved",
   "theorems": [
    "Osv.C83_crash_iff",
    "Osv.C83_refines",
    "Osv.C83_after_crash",
    "Osv.C83_codes",
    "Osv.C83_exit_zero",
    "Osv.C83_world_iff",
    "Osv.C83_parsers",
    "Osv.C83_world_safe",
    "Osv.C83_clean_exit_partial"
   ],
   "note": "Panics inside goroutines of the API check and fatal errors of the runtime (out of memory, stack overflow) are not modelled. `C83_clean_exit_partial` is the partial C66 for the process, with the conditions of C66."
  },
  {
   "property": "C84",
   "status": "partial",
   "theorems": [
    "Osv.C84_order_partial",
    "Osv.C84_partial",
    "Osv.C84_api_partial",
    "Osv.C84_api_counterexample",
    "Osv.C84_world_orders",
    "Osv.C84_world_same",
    "Osv.C84_world_keys",
    "Osv.C84_tie_counterexample",
    "Osv.C84_keys_counterexample",
    "Osv.C84_counterexample",
    "Osv.C84_order_counterexample"
   ],
   "note": "False in general: two packages of one name and version from different commits are listed in map order (C84_tie_counterexample), and map order can decide what a file is read as (C84_keys_counterexample); neither condition of C84_partial can be left out. The two runs use the same sort routine, as sort.Slice is deterministic. The text of the cause of an error is not part of an event; which of several API errors is returned does depend on the interleaving (C84_api_counterexample)."
  },
  {
   "property": "C85",
   "status": "partial",
   "theorems": [
    "Osv.C85_encode",
    "Osv.C85_partial",
    "Osv.C85_nothing",
    "Osv.C85_again",
    "Osv.C85_codec",
    "Osv.C85_refines",
    "Osv.C85_refines_none",
    "Osv.C85_counterexample"
   ],
   "note": "False in general: keys that the command does not know are lost (C85_counterexample). Proved for what the config says. Comments and layout are not part of the tree of nodes; the library must read back the trees it writes, which C102 proves for a model of it."
  },
  {
   "property": "C86",
   "status": "partial",
   "theorems": [
    "Osv.C86_archive",
    "Osv.C86_directory",
    "Osv.C86_cache",
    "Osv.C86_cache_write",
    "Osv.C86_load",
    "Osv.C86_load_quiet",
    "Osv.C86_check",
    "Osv.C86_warnings",
    "Osv.C86_quiet_partial",
    "Osv.C86_checked_partial",
    "Osv.C86_default_partial",
    "Osv.C86_counterexample"
   ],
   "note": "False in general: exit code 0 comes with skipped files (C86_counterexample). C86_quiet_partial and C86_default_partial are the property for runs without messages from databases. The text of a message and the order of messages of different files are as in the code; that a failed write of the cache is reported follows from the outcome of the write, which is an input."
  },
  {
   "property": "C87",
   "status": "proved",
   "theorems": [
    "Osv.C87_base64_read",
    "Osv.C87_base64_written",
    "Osv.C87_written",
    "Osv.C87_document",
    "Osv.C87_read",
    "Osv.C87_other",
    "Osv.C87_message",
    "Osv.C87_offline",
    "Osv.C87_unchanged"
   ],
   "note": "Objects in which a key occurs twice, or differs in case only, are excluded in C87_read and C87_message. A second body array decoded over the memory of a first is a case of those."
  },
  {
   "property": "C88",
   "status": "proved",
   "theorems": [
    "Osv.C88_gradle",
    "Osv.C88_mix",
    "Osv.C88_yarn",
    "Osv.C88_maven",
    "Osv.C88_gradle_quiet",
    "Osv.C88_mix_quiet",
    "Osv.C88_yarn_quiet",
    "Osv.C88_maven_quiet",
    "Osv.C88_others",
    "Osv.C88_table",
    "Osv.C88_text"
   ],
   "note": "A pom.xml whose version contains a line break is excluded from C88_maven. The other parsers have no messages (C88_others)."
  },
  {
   "property": "C89",
   "status": "proved",
   "theorems": [
    "Osv.C89_parsed",
    "Osv.C89_clean",
    "Osv.C89_reported",
    "Osv.C89_quiet",
    "Osv.C89_nothing_skipped"
   ],
   "note": "Declares states per format when an entry is written in a file; its conditions are those under which the format is read exactly (C41, C44, C46-C54, C57, C64, C65, C74, C75, C77). YAML and TOML begin at trees, go.mod at the decoded file; C98, C101 and C95 give these from the text. CSV is not included. Advisories are assumed to have sorted events with laws for the comparison, as in C66."
  },
  {
   "property": "C90",
   "status": "proved",
   "theorems": [
    "Osv.C90_written",
    "Osv.C90_source",
    "Osv.C90_packages",
    "Osv.C90_reported"
   ],
   "note": "Legible states per format the conditions under which it is read exactly, as in C89. Lockfiles in CSV are not included, see C73. For databases it needs configs to be used, as C66_reported_partial; that a database with the same identifier may stand for the required one is C31."
  },
  {
   "property": "C91",
   "status": "partial",
   "theorems": [
    "Osv.C91_clean",
    "Osv.C91_shortest",
    "Osv.C91_found",
    "Osv.C91_config",
    "Osv.C91_ignored",
    "Osv.C91_given_config",
    "Osv.C91_requirements_partial",
    "Osv.C91_counterexample",
    "Osv.C91_links_counterexample"
   ],
   "note": "False for files that are included by an absolute path: `-r /x.txt` is looked up below the directory of the including file, see C91_counterexample. False also with links to directories, as paths are cleaned before they are opened: C91_links_counterexample. A path that stands for nothing may stand for a file once it is cleaned, so the converse of C91_clean is not claimed."
  },
  {
   "property": "C92",
   "status": "proved",
   "theorems": [
    "Osv.C92_lines",
    "Osv.C92_unique",
    "Osv.C92_too_long",
    "Osv.C92_yarn",
    "Osv.C92_mix",
    "Osv.C92_gradle",
    "Osv.C92_errors",
    "Osv.C92_reads",
    "Osv.C92_requirements",
    "Osv.C92_space"
   ],
   "note": "The scanner and TrimSpace of the Go library are part of the model, so that they behave like this is a fact about the model of the library; see the trusted base. Invalid UTF-8 is outside the model."
  },
  {
   "property": "C93",
   "status": "partial",
   "theorems": [
    "Osv.C93_config",
    "Osv.C93_local",
    "Osv.C93_loads",
    "Osv.C93_slashes_partial",
    "Osv.C93_counterexample"
   ],
   "note": "False with two slashes: `file://advisories/npm` is read from the directory `npm`, see C93_counterexample; without a slash the current directory is read. Proved for the URLs of the documentation, with one and with three or more slashes. url.ParseRequestURI of the Go library is part of the model."
  },
  {
   "property": "C94",
   "status": "partial",
   "theorems": [
    "Osv.C94_queries_partial",
    "Osv.C94_advisories_partial",
    "Osv.C94_distinct_partial",
    "Osv.C94_counterexample"
   ],
   "note": "False if an element of the path contains a coded slash: `https://h/a%2Fb` becomes `https://h/a/b/querybatch`, see C94_counterexample. User information, addresses in brackets and coded characters in the host are outside the specification of the URLs, and IDs that are no names of path elements are in C71."
  },
  {
   "property": "C95",
   "status": "proved",
   "theorems": [
    "Osv.C95_text",
    "Osv.C95_unique",
    "Osv.C95_packages",
    "Osv.C95_applied",
    "Osv.C95_error"
   ],
   "note": "modfile.Parse of golang.org/x/mod is part of the model, written from its documentation and behaviour, so that it accepts these texts is a fact about the model of the library; see the trusted base. Invalid UTF-8 is outside the model, and escapes of single bytes above 7F give replacement characters."
  },
  {
   "property": "C96",
   "status": "proved",
   "theorems": [
    "Osv.C96_semver_laws",
    "Osv.C96_nuget_laws",
    "Osv.C96_rubygems_laws",
    "Osv.C96_precedence",
    "Osv.C96_unique",
    "Osv.C96_range",
    "Osv.C96_ecosystems",
    "Osv.C96_hyphen_numbers",
    "Osv.C96_long",
    "Osv.C96_long_release"
   ],
   "note": "The comparison is the library osv-scalibr/semantic, whose source is not available here; the model is written from its known behaviour, so this is a fact about the model of the library, see the trusted base. PyPI, Maven, Packagist, Pub and CRAN versions stay a parameter with the laws as hypothesis. Hyphens with numbers behind them are taken for negative numbers, see C96_hyphen_numbers. Segments of RubyGems versions are a parameter."
  },
  {
   "property": "C97",
   "status": "proved",
   "theorems": [
    "Osv.C97_started",
    "Osv.C97_streams",
    "Osv.C97_parsers",
    "Osv.C97_unknown_parser",
    "Osv.C97_no_paths",
    "Osv.C97_bad_config",
    "Osv.C97_information",
    "Osv.C97_number"
   ],
   "note": "The whole transcript in order with streams, for started runs and each way to stop early; which results are in the parts is the subject of C23, C24, C80."
  },
  {
   "property": "C98",
   "status": "proved",
   "theorems": [
    "Osv.C98_read",
    "Osv.C98_unique",
    "Osv.C98_integers",
    "Osv.C98_writable",
    "Osv.C98_cargo",
    "Osv.C98_poetry",
    "Osv.C98_pdm",
    "Osv.C98_uv",
    "Osv.C98_pylock"
   ],
   "note": "The library BurntSushi/toml is part of the model, written from the TOML 1.0 specification, as its source is not available here; that it accepts these texts is a fact about the model of the library, see the trusted base. Tables whose parts are scattered over the document, date-times with a space in the middle and a byte order mark are outside the grammar. What is not TOML is not claimed to be refused."
  },
  {
   "property": "C99",
   "status": "proved",
   "theorems": [
    "Osv.C99_accepted",
    "Osv.C99_parts",
    "Osv.C99_unique",
    "Osv.C99_texts",
    "Osv.C99_config",
    "Osv.C99_dropped"
   ],
   "note": "The package net/url of Go 1.24 is part of the model; that it accepts these texts is a fact about the model of the library, see the trusted base. What is read for codes that are not UTF-8 is not claimed, only that they are accepted."
  },
  {
   "property": "C100",
   "status": "partial",
   "theorems": [
    "Osv.C100_queries_partial",
    "Osv.C100_advisories_partial",
    "Osv.C100_path_partial",
    "Osv.C100_rest_partial",
    "Osv.C100_counterexample"
   ],
   "note": "Refuted for addresses whose zone has characters outside ASCII: they are written as codes, which are not accepted in zones (C100_counterexample). Proved for all other URLs with a host. Paths whose elements are empty or dots are left to C71 and C100_path_partial."
  },
  {
   "property": "C101",
   "status": "proved",
   "theorems": [
    "Osv.C101_read",
    "Osv.C101_unique",
    "Osv.C101_library",
    "Osv.C101_config",
    "Osv.C101_nothing",
    "Osv.C101_not_null",
    "Osv.C101_pnpm",
    "Osv.C101_pubspec",
    "Osv.C101_comments"
   ],
   "note": "The library yaml.v3 is part of the model for the texts of the grammar, written from the YAML specification and its known behaviour, as its source is not available here; elsewhere it is a parameter. Outside the grammar are aliases, anchors, tags, merge keys, block scalars, scalars over several lines, collections in brackets over several lines or inside each other, tabs, and several documents."
  },
  {
   "property": "C102",
   "status": "proved",
   "theorems": [
    "Osv.C102_written",
    "Osv.C102_styles",
    "Osv.C102_read_back",
    "Osv.C102_injective",
    "Osv.C102_update",
    "Osv.C102_file"
   ],
   "note": "The layout is that of the encoder of yaml.v3 with an indentation of 2, which is part of the model; which strings it puts into quotes, and which quotes, is a parameter. The encoder writes strings with line breaks over several lines, which is not modelled: here they are in double quotes."
  },
  {
   "property": "C103",
   "status": "partial",
   "theorems": [
    "Osv.C103_left",
    "Osv.C103_load",
    "Osv.C103_ignores_partial",
    "Osv.C103_databases_partial",
    "Osv.C103_other_partial",
    "Osv.C103_elsewhere",
    "Osv.C103_counterexample"
   ],
   "note": "Refuted: C103_counterexample, by a prefix that ignores another advisory and has lost the database. What is left can be any number of the first ignores without databases, all ignores with the first databases, or an identifier cut short, for every config and every way to quote (C103_ignores_partial, C103_databases_partial, C103_other_partial)."
  },
  {
   "property": "C104",
   "status": "proved",
   "theorems": [
    "Osv.C104_readers",
    "Osv.C104_declares",
    "Osv.C104_excused",
    "Osv.C104_every",
    "Osv.C104_clean",
    "Osv.C104_reported"
   ],
   "note": "For the formats in TOML, YAML and go.mod; those in JSON, XML and by lines begin at texts in C89 already. Conditions as in C66 and C89: not both --no-config and --no-config-databases, databases in use, well-formed advisories. Downloading, unzipping, the file system and times are parameters. The readers are models of libraries, see C95, C98, C101, and the comparison is that of C96."
  },
  {
   "property": "C105",
   "status": "proved",
   "theorems": [
    "Osv.C105_read",
    "Osv.C105_unique",
    "Osv.C105_nine",
    "Osv.C105_exact",
    "Osv.C105_pnpm",
    "Osv.C105_bun",
    "Osv.C105_json",
    "Osv.C105_json_short",
    "Osv.C105_rounded"
   ],
   "note": "`strconv.ParseFloat` is part of the model for decimal numbers; hexadecimal numbers, underscores, infinities, NaN and exponents with more than four digits are a parameter. With more than 15 digits behind the point numbers next to 9 count as 9 (C105_rounded)."
  },
  {
   "property": "C106",
   "status": "proved",
   "theorems": [
    "Osv.C106_unique",
    "Osv.C106_time",
    "Osv.C106_other",
    "Osv.C106_one",
    "Osv.C106_fixed",
    "Osv.C106_same",
    "Osv.C106_again",
    "Osv.C106_roundtrip"
   ],
   "note": "Texts outside of the grammar are a parameter; for the roundtrip it is assumed that what is printed for them is a time in the canonical way."
  },
  {
   "property": "C107",
   "status": "proved",
   "theorems": [
    "Osv.C107_perm",
    "Osv.C107_sorted",
    "Osv.C107_fixed",
    "Osv.C107_small",
    "Osv.C107_unique",
    "Osv.C107_ranges",
    "Osv.C107_unstable"
   ],
   "note": "The model is the algorithm of Go 1.24 (sort.Slice, zsortfunc.go), with the random generator it uses. C107_unstable adds that the order of equal elements is not kept beyond twelve elements."
  },
  {
   "property": "C108",
   "status": "proved",
   "theorems": [
    "Osv.C108_laws",
    "Osv.C108_order",
    "Osv.C108_unique",
    "Osv.C108_others",
    "Osv.C108_range"
   ],
   "note": "The comparison is that of osv-scalibr/semantic, which is not part of the repository; the model follows its known behaviour (release 0.4). What it makes of texts that are no versions is a parameter, except that they come first. Lower case is that of ASCII. A pre-release without number directly followed by a post-release that is a dash and a number is left out of the grammar, as the two readings of it differ."
  },
  {
   "property": "C109",
   "status": "proved",
   "theorems": [
    "Osv.C109_affected",
    "Osv.C109_clean",
    "Osv.C109_reported",
    "Osv.C109_justified",
    "Osv.C109_readers"
   ],
   "note": "Conditions as in C104; the ranges have versions in the grammars, one statement per event, and no introduction at the same version as a fix. The comparison of the library is the model of C96 and C108."
  },
  {
   "property": "C110",
   "status": "partial",
   "theorems": [
    "Osv.C110_counterexample",
    "Osv.C110_order_partial",
    "Osv.C110_range_partial"
   ],
   "note": "False as stated: identifiers that are a hyphen with digits are read as negative numbers (C110_counterexample: 1--01 and 1--1). Proved for all other versions. The comparison of the library is a model by its known behaviour."
  },
  {
   "property": "C111",
   "status": "partial",
   "theorems": [
    "Osv.C111_laws",
    "Osv.C111_counterexample",
    "Osv.C111_order_partial",
    "Osv.C111_canonical",
    "Osv.C111_range_partial"
   ],
   "note": "False as stated: zeros with more than one digit are not taken away (C111_counterexample: 1.00.a and 1.a). Proved for all versions that write zero as one digit. The comparison of the library is a model by its known behaviour."
  },
  {
   "property": "C112",
   "status": "proved",
   "theorems": [
    "Osv.C112_laws",
    "Osv.C112_order",
    "Osv.C112_range"
   ],
   "note": "The comparison of the library is a model by its known behaviour; what it makes of parts that are no numbers is left open."
  },
  {
   "property": "C113",
   "status": "proved",
   "theorems": [
    "Osv.C113_range",
    "Osv.C113_affected"
   ],
   "note": "For all comparisons; C114 is a case that is not covered by C01."
  },
  {
   "property": "C114",
   "status": "partial",
   "theorems": [
    "Osv.C114_counterexample",
    "Osv.C114_order",
    "Osv.C114_laws_partial",
    "Osv.C114_range",
    "Osv.C114_affected"
   ],
   "note": "False as stated: on all texts the comparison is no total preorder (C114_counterexample: 1.1 and 1.# are equal, so are 1.# and 1.0). Proved for all texts of numbers and phases. The comparison of the library is a model by its known behaviour."
  },
  {
   "property": "C115",
   "status": "partial",
   "theorems": [
    "Osv.C115_counterexample",
    "Osv.C115_order",
    "Osv.C115_dotted",
    "Osv.C115_trailing",
    "Osv.C115_laws_partial",
    "Osv.C115_range",
    "Osv.C115_affected"
   ],
   "note": "False as stated: on all texts the comparison is no total preorder (C115_counterexample: 1 is older than 1.a, that is older than 1a1, but 1a1 is older than 1). Proved for all texts of numbers with an optional qualifier and count. The comparison of the library is a model by its known behaviour."
  }
 ]
}