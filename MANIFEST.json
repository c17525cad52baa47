{
 "claims": [
  {
   "property": "C01",
   "status": "proved",
   "theorems": [
    "Cackle.ApiMap.C01_classification",
    "Cackle.ApiMap.C01_split_join",
    "Cackle.ApiMap.C01_split_components"
   ],
   "note": ""
  },
  {
   "property": "C02",
   "status": "proved",
   "theorems": [
    "Cackle.ApiMap.C02_order_independent",
    "Cackle.ApiMap.C01_classification"
   ],
   "note": "No panic: C01_classification states that loading yields a map (the panic is the value none)."
  },
  {
   "property": "C03",
   "status": "proved",
   "theorems": [
    "Cackle.Perm.C03_inheritance",
    "Cackle.Perm.C03_no_leak_between_packages"
   ],
   "note": ""
  },
  {
   "property": "C04",
   "status": "partial",
   "theorems": [
    "Cackle.Perm.C04_sandbox_partial",
    "Cackle.Perm.C04_pass_env_not_inherited",
    "Cackle.Perm.C04_pass_env_actual_partial"
   ],
   "note": "The code does not inherit pass_env: the full claim is refuted by C04_pass_env_not_inherited; kind, network, extra args and writable directories are proved."
  },
  {
   "property": "C05",
   "status": "partial",
   "theorems": [
    "Cackle.Perm.C05_update_to_2",
    "Cackle.Perm.C05_update_to_3_changes_behaviour",
    "Cackle.Perm.C05_update_to_3_partial",
    "Cackle.Editor.C05_update_document_to_2",
    "Cackle.Editor.C05_update_document_to_3_changes_behaviour",
    "Cackle.Editor.C05_update_document_to_3_partial",
    "Cackle.Perm.C05_rustc_sandbox"
   ],
   "note": "Step to version 2 proved; step to version 3 is refuted (extern permission changes), proved when no package is allowed unsafe without extern."
  },
  {
   "property": "C06",
   "status": "proved",
   "theorems": [
    "Cackle.Checker.C06_api_use_reported"
   ],
   "note": ""
  },
  {
   "property": "C07",
   "status": "partial",
   "theorems": [
    "Cackle.Checker.C07_exact_partial",
    "Cackle.Checker.C07_same_config_partial",
    "Cackle.Checker.C07_removed_permission_still_reported"
   ],
   "note": "The claim with respect to the final configuration is refuted (a permission removed during the session is still reported); exact characterisation over the history, and the claim itself when the configuration is not edited, are proved."
  },
  {
   "property": "C08",
   "status": "partial",
   "theorems": [
    "Cackle.Checker.C08_linked_analysed_partial",
    "Cackle.Checker.C08_binary_not_analysed"
   ],
   "note": "Refuted when two link outputs share a crate selector and are handled concurrently, one of them with problems: after they are settled, the scan results of one are used for the other. Proved, for all interleavings, if for each crate all linker invocations are for the same file or no analysis of its binaries found a problem."
  },
  {
   "property": "C09",
   "status": "partial",
   "theorems": [
    "Cackle.Checker.C09_not_reported",
    "Cackle.Checker.C09_build_script_partial"
   ],
   "note": "The code never reports a build script of an indexed package (refuted by C09_not_reported); exact condition proved."
  },
  {
   "property": "C10",
   "status": "proved",
   "theorems": [
    "Cackle.Store.C10_waiters"
   ],
   "note": ""
  },
  {
   "property": "C100",
   "status": "proved",
   "theorems": [
    "Cackle.Basic.C100_answering_finishes",
    "Cackle.Basic.C100_reports_are_seen"
   ],
   "note": "Assumes that fixes can be applied one after the other and that none of the problems is the missing config file."
  },
  {
   "property": "C101",
   "status": "partial",
   "theorems": [
    "Cackle.Link.C101_objects_are_scanned_partial",
    "Cackle.Link.C101_nothing_else_is_scanned",
    "Cackle.Link.C101_target_dir",
    "Cackle.Link.C101_unresolved_target_scans_nothing",
    "Cackle.Link.C101_fails",
    "Cackle.Link.C101_response_file",
    "Cackle.Link.C101_dotdot"
   ],
   "note": "Refuted: the target directory is not canonicalised but object paths are, so with a symbolic link (or ..) in its path nothing is scanned at all; arguments in response files are not seen. Proved if the path of the target directory is canonical and the argument is on the command line."
  },
  {
   "property": "C102",
   "status": "partial",
   "theorems": [
    "Cackle.Link.C102_runs_what_was_analysed_partial",
    "Cackle.Link.C102_otherwise_nothing_is_changed",
    "Cackle.Link.C102_fails",
    "Cackle.Link.C102_other_program"
   ],
   "note": "Refuted: paths are put between double quotes in a bash script without escaping. Proved for paths without quotes, dollar signs, back quotes, backslashes and line breaks."
  },
  {
   "property": "C103",
   "status": "proved",
   "theorems": [
    "Cackle.Link.C103_originals_are_kept_apart",
    "Cackle.Link.C103_linking_keeps_other_programs"
   ],
   "note": "The second part excludes programs that are named like the original of another one."
  },
  {
   "property": "C104",
   "status": "proved",
   "theorems": [
    "Cackle.Link.C104_roles",
    "Cackle.Link.C104_linker"
   ],
   "note": ""
  },
  {
   "property": "C105",
   "status": "partial",
   "theorems": [
    "Cackle.Cargo.C105_options_partial",
    "Cackle.Cargo.C105_nothing_else",
    "Cackle.Cargo.C105_double_dash"
   ],
   "note": "Refuted: packages, target and features are appended after the arguments that are passed on, so after -- they go to the program instead of cargo. Proved if the arguments passed on and the flags have no -- and no option without its value."
  },
  {
   "property": "C106",
   "status": "partial",
   "theorems": [
    "Cackle.Cargo.C106_nothing_is_reused_partial",
    "Cackle.Cargo.C106_target_is_reused",
    "Cackle.Cargo.C106_config_target_is_reused",
    "Cackle.Cargo.C106_changed_profile_is_reused"
   ],
   "note": "Refuted: cargo clean --profile P leaves what was built for a target (--target or cargo's config) in place, so a second run with a target checks hardly anything; likewise if the profile changes between clean and build. Proved without a target. What cargo clean and cargo build do is a specification."
  },
  {
   "property": "C107",
   "status": "partial",
   "theorems": [
    "Cackle.Cargo.C107_settings_partial",
    "Cackle.Cargo.C107_split_debuginfo",
    "Cackle.Cargo.C107_package_settings"
   ],
   "note": "Refuted: split-debuginfo is given outside of any profile, where it has no effect; settings for single packages are inherited from dev. Proved for the other three settings and packages without settings of their own."
  },
  {
   "property": "C108",
   "status": "proved",
   "theorems": [
    "Cackle.Cargo.C108_environment"
   ],
   "note": ""
  },
  {
   "property": "C109",
   "status": "partial",
   "theorems": [
    "Cackle.Server.C109_success_partial",
    "Cackle.Server.C109_checked",
    "Cackle.Server.C109_every_binary_analysed",
    "Cackle.Server.C109_unanswered_request"
   ],
   "note": "Refuted for a program that cargo does not wait for: its request is not answered when cargo ends successfully, and the build succeeds. Proved for all programs whose failure makes cargo fail; that these are all is an assumption about cargo. Composed with C65, C08 and C15."
  },
  {
   "property": "C11",
   "status": "proved",
   "theorems": [
    "Cackle.Store.C11_ids_stable",
    "Cackle.Store.C11_one_entry_per_problem",
    "Cackle.Store.C11_add_visible"
   ],
   "note": ""
  },
  {
   "property": "C110",
   "status": "partial",
   "theorems": [
    "Cackle.Server.C110_abort_partial",
    "Cackle.Server.C110_refusal_aborts",
    "Cackle.Server.C110_refused_partial",
    "Cackle.Server.C110_blocked_by_silence"
   ],
   "note": "Refuted: while the main thread reads a request that the program does not write, nothing else happens. Proved: four unblocked steps are enough, unless a malformed request ends the loop."
  },
  {
   "property": "C111",
   "status": "partial",
   "theorems": [
    "Cackle.Server.C111_ended_partial",
    "Cackle.Server.C111_cargo_left_running"
   ],
   "note": "Refuted: a request that cannot be read ends the loop with an error and leaves cargo running. Proved for all other ways to return."
  },
  {
   "property": "C112",
   "status": "proved",
   "theorems": [
    "Cackle.Server.C112_own_answer",
    "Cackle.Server.C112_answer_final",
    "Cackle.Server.C112_answers"
   ],
   "note": ""
  },
  {
   "property": "C113",
   "status": "partial",
   "theorems": [
    "Cackle.Server.C113_error_fails_partial",
    "Cackle.Server.C113_error_in_time",
    "Cackle.Server.C113_error_genuine",
    "Cackle.Server.C113_error_lost"
   ],
   "note": "Refuted: the answer is written before the error is sent; if cargo ends in between, only that cargo failed is reported. Proved: the build fails if the program is one that cargo needs; an error that was sent in time is reported; an error that is reported is genuine."
  },
  {
   "property": "C114",
   "status": "partial",
   "theorems": [
    "Cackle.Server.C114_ends_partial",
    "Cackle.Server.C114_blocked_by_silence"
   ],
   "note": "Refuted as C110: a program that is connected and silent blocks the loop for ever. Proved: five unblocked steps are enough."
  },
  {
   "property": "C115",
   "status": "partial",
   "theorems": [
    "Cackle.CrateIndex.C115_proc_macros_partial",
    "Cackle.CrateIndex.C115_same_version_unreported"
   ],
   "note": "Refuted: two packages with the same name and version from different sources are one entry of the table, so a proc macro can go unreported. Proved if names with versions are distinct."
  },
  {
   "property": "C116",
   "status": "partial",
   "theorems": [
    "Cackle.CrateIndex.C116_permissions_partial",
    "Cackle.CrateIndex.C116_bench_without_sandbox"
   ],
   "note": "Refuted: benchmarks are built like tests but do not count as tests; for a package with benchmarks only, the global sandbox is not applied. Proved for everything else. Composed with C03 and C04."
  },
  {
   "property": "C117",
   "status": "proved",
   "theorems": [
    "Cackle.CrateIndex.C117_owner"
   ],
   "note": "That no two packages have the same directory is a fact about cargo. Composed with C33."
  },
  {
   "property": "C118",
   "status": "proved",
   "theorems": [
    "Cackle.CrateIndex.C118_newest"
   ],
   "note": "The order of versions is a parameter; it has to be total and transitive."
  },
  {
   "property": "C119",
   "status": "proved",
   "theorems": [
    "Cackle.Messages.C119_arrives",
    "Cackle.Messages.C119_refused",
    "Cackle.Messages.C119_truncated",
    "Cackle.Messages.C119_distinct"
   ],
   "note": "serde_json is modelled as specified by its documentation (compact printer; reader with recursion limit 128)."
  },
  {
   "property": "C12",
   "status": "partial",
   "theorems": [
    "Cackle.Store.C12_replace_by_same_panics",
    "Cackle.Store.C12_no_panic_partial"
   ],
   "note": "Replacing a problem by one with the same deduplication key panics later (refuted); every other history is proved panic free."
  },
  {
   "property": "C120",
   "status": "proved",
   "theorems": [
    "Cackle.Messages.C120_in_force",
    "Cackle.Messages.C120_decisions",
    "Cackle.Messages.C120_last"
   ],
   "note": "A write either happens as a whole or not at all (C26). A wrapper that is already running keeps what it read."
  },
  {
   "property": "C121",
   "status": "proved",
   "theorems": [
    "Cackle.Messages.C121_answer",
    "Cackle.Messages.C121_closed"
   ],
   "note": ""
  },
  {
   "property": "C122",
   "status": "partial",
   "theorems": [
    "Cackle.Security.C122_only_permitted_partial",
    "Cackle.Security.C122_unchanged_partial",
    "Cackle.Security.C122_success_partial",
    "Cackle.Security.C122_defined_later"
   ],
   "note": "Refuted in general: a binary that was analysed is not analysed again when the configuration changes during the run (C122_defined_later). Proved with respect to the API definitions in force at the last analysis of the binary, and to all configurations loaded in the run; with the exceptions of C08 and C77."
  },
  {
   "property": "C123",
   "status": "partial",
   "theorems": [
    "Cackle.Report.C123_all_uses_partial",
    "Cackle.Report.C123_forged_use"
   ],
   "note": "Refuted in general: a line break in the name of a source file (chosen by the checked package) makes the report list a use that does not exist (C123_forged_use). Proved for names without line breaks, where files and functions do not start with a blank; reading the text back gives exactly the uses."
  },
  {
   "property": "C124",
   "status": "partial",
   "theorems": [
    "Cackle.Report.C124_permission_partial",
    "Cackle.Report.C124_scope_not_reported",
    "Cackle.Report.C124_off_tree_look_alike"
   ],
   "note": "Refuted: the text with details, which runs without user interaction print, omits the scope, so it cannot be told whether the package, its build script or a build script that includes it lacks the permission (C124_scope_not_reported); uses of an API of a package that is no dependency do not mention the scope at all (C124_off_tree_look_alike). Proved for the short text, and for package and API in both."
  },
  {
   "property": "C125",
   "status": "partial",
   "theorems": [
    "Cackle.Ui.C125_highlighted_partial",
    "Cackle.Ui.C125_another_problem",
    "Cackle.Ui.C125_panes"
   ],
   "note": "Refuted: when a reload of the config reduces the edits of the selected problem, the highlighted row is another problem and accepting does nothing (C125_another_problem). Proved: whenever the keys act on something, it is highlighted, and a highlighted edit is the one that is accepted."
  },
  {
   "property": "C126",
   "status": "partial",
   "theorems": [
    "Cackle.Ui.C126_lines",
    "Cackle.Ui.C126_visible_partial",
    "Cackle.Ui.C126_token",
    "Cackle.Ui.C126_pushed_out",
    "Cackle.Ui.C126_std_source"
   ],
   "note": "Refuted: lines are wrapped but counted as one row, so a long line above a use pushes it out of the screen (C126_pushed_out). Proved for the lines that are computed, for lines that fit, and for the highlighted token."
  },
  {
   "property": "C127",
   "status": "partial",
   "theorems": [
    "Cackle.Ui.C127_shown_partial",
    "Cackle.Ui.C127_cut_off"
   ],
   "note": "Refuted: a diff with more changes than rows is cut off without any indication (C127_cut_off). Proved: all changes are computed, and they are on the screen as long as any context is."
  },
  {
   "property": "C128",
   "status": "partial",
   "theorems": [
    "Cackle.Fixes.C128_settled_partial",
    "Cackle.Fixes.C128_accept_partial",
    "Cackle.Fixes.C128_extern",
    "Cackle.Fixes.C128_test",
    "Cackle.Fixes.C128_execution_offers"
   ],
   "note": "Refuted in general: with config version 2, a problem about extern code disappears although allow_extern does not help there (C128_extern); a failed test disappears when the sandbox of the build script was disabled, although the test runs in the same sandbox (C128_test). Proved for all problems and edits otherwise, also in every execution of the full-screen user interface. Restrictions: used functions have one name only, the API excludes none of the names of the callers, no colons in the parts of names."
  },
  {
   "property": "C129",
   "status": "partial",
   "theorems": [
    "Cackle.Fixes.C129_grant_partial",
    "Cackle.Fixes.C129_versions",
    "Cackle.Fixes.C129_titles_differ",
    "Cackle.Fixes.C129_title_effect",
    "Cackle.Fixes.C129_remove_title"
   ],
   "note": "Refuted in general: the title names one version of a package, but all versions are permitted to use the API (C129_versions). Proved when no other version is meant; names without quotation marks and brackets. Titles of different edits for one problem always differ; edits with the same title change every configuration in the same way, except the two that remove unused permissions."
  },
  {
   "property": "C13",
   "status": "proved",
   "theorems": [
    "Cackle.NullUi.C13_decision"
   ],
   "note": ""
  },
  {
   "property": "C130",
   "status": "proved",
   "theorems": [
    "Cackle.Fixes.C130_setup",
    "Cackle.Fixes.C130_recommended",
    "Cackle.Fixes.C130_questions"
   ],
   "note": "On the tree of the TOML document; printing and parsing TOML is not modelled. With the recommended configuration only the sandbox is asked for; fs, net and process are imported."
  },
  {
   "property": "C131",
   "status": "partial",
   "theorems": [
    "Cackle.Output.C131_shown_partial",
    "Cackle.Output.C131_prefix",
    "Cackle.Output.C131_lost",
    "Cackle.Output.C131_lost_basic"
   ],
   "note": "Refuted in general: when cargo fails, invoke_cargo_build returns an error instead of the handle for waiting, so cackle can end before cargo's error messages were passed on (C131_lost; most likely when the full-screen interface was active). Proved when the build succeeds; what is shown is always a beginning of what was printed (C131_prefix)."
  },
  {
   "property": "C132",
   "status": "partial",
   "theorems": [
    "Cackle.Output.C132_basic_partial",
    "Cackle.Output.C132_fits_partial",
    "Cackle.Output.C132_finite",
    "Cackle.Output.C132_only_ui",
    "Cackle.Output.C132_hangs",
    "Cackle.Output.C132_hang_possible",
    "Cackle.Output.C132_refuted"
   ],
   "note": "Refuted in general: the full-screen interface holds the lock of standard error from the first problem until cargo has ended. If cargo prints more than the capacity of a pipe and 64 bytes in that time, it blocks for ever (C132_hangs: inevitable; C132_hang_possible: for every such build). Proved with the basic interface, and with the full-screen one if what is still to come fits in the pipes (C132_only_ui: there is no other reason for a hang). Every run is finite (C132_finite)."
  },
  {
   "property": "C133",
   "status": "partial",
   "theorems": [
    "Cackle.Shown.C133_paste_partial",
    "Cackle.Shown.C133_bwrap_partial",
    "Cackle.Shown.C133_own",
    "Cackle.Shown.C133_distinct",
    "Cackle.Shown.C133_runs_command",
    "Cackle.Shown.C133_refuted"
   ],
   "note": "Refuted in general: Debug quotes do not protect $ and backquotes, and arguments with $, ; or newlines but no space are not quoted at all. The description of the package, which its author writes, is among the arguments (C133_runs_command, C133_refuted). Proved for arguments without such characters, for the part of bash that is specified in Props/LinkSpec.lean (history expansion with ! is not). Different commands are always shown differently (C133_distinct)."
  },
  {
   "property": "C134",
   "status": "partial",
   "theorems": [
    "Cackle.Std.C134_analysed_partial",
    "Cackle.Std.C134_nothing",
    "Cackle.Std.C134_distribution",
    "Cackle.Std.C134_cargo_home",
    "Cackle.Std.C134_rust_dir",
    "Cackle.Std.C134_failed_rustc",
    "Cackle.Std.C134_failed_rustc_files",
    "Cackle.Std.C134_refuted",
    "Cackle.Std.C134_refuted_project"
   ],
   "note": "Refuted in general: directories below /rust, /rustc and /cargo/registry also count as the distribution, so a project in /rust or dependencies with CARGO_HOME=/cargo are not analysed; and the exit status of rustc --print sysroot is not looked at, so that after a failure everything counts as the distribution. Proved when rustc succeeds and no directory is below these three."
  },
  {
   "property": "C135",
   "status": "proved",
   "theorems": [
    "Cackle.Ui.C135_problem",
    "Cackle.Ui.C135_place",
    "Cackle.Ui.C135_frame",
    "Cackle.Ui.C135_edit"
   ],
   "note": "For executions that have started and not been quit, with an editor that behaves like the modelled one."
  },
  {
   "property": "C136",
   "status": "proved",
   "theorems": [
    "Cackle.Ui.C136_history",
    "Cackle.Ui.C136_recall",
    "Cackle.Ui.C136_latest"
   ],
   "note": "The history is the list of comments entered, without repetitions, latest first; every entry can be reached with Up and Down. (The text typed so far is lost by Up and Down, also if there is no history.)"
  },
  {
   "property": "C137",
   "status": "partial",
   "theorems": [
    "Cackle.LegacySymbols.C137_trait_partial",
    "Cackle.LegacySymbols.C137_generic_partial",
    "Cackle.LegacySymbols.C137_trait_args",
    "Cackle.LegacySymbols.C137_generic_method"
   ],
   "note": "Holds for traits without generic arguments and for generic functions. C137_trait_args and C137_generic_method refute the full claim: in the symbol of <a::T as core::convert::From<std::fs::File>>::from the path std::fs::File is not the beginning of a name, and for std::thread::JoinHandle<T>::join there is no name std::thread::JoinHandle::join."
  },
  {
   "property": "C138",
   "status": "proved",
   "theorems": [
    "Cackle.RustcErrors.C138_places",
    "Cackle.RustcErrors.C138_unsafe",
    "Cackle.RustcErrors.C138_extern",
    "Cackle.RustcErrors.C138_other"
   ],
   "note": "JSON is read by the model of serde_json in Model/Json.lean."
  },
  {
   "property": "C139",
   "status": "partial",
   "theorems": [
    "Cackle.RustcErrors.C139_not_asked_partial",
    "Cackle.RustcErrors.C139_compiles",
    "Cackle.RustcErrors.C139_again",
    "Cackle.RustcErrors.C139_own_lint",
    "Cackle.RustcErrors.C139_endless"
   ],
   "note": "Holds if rustc succeeds. C139_own_lint refutes the full claim: a crate that has unsafe code and forbids it itself (or has it forbidden by the arguments of cargo) is asked about although unsafe code is permitted. C139_endless: granting the permission then changes nothing, and the question is asked again each time."
  },
  {
   "property": "C14",
   "status": "partial",
   "theorems": [
    "Cackle.Main.C14_finishes_partial",
    "Cackle.Main.C14_finishes_real_report_partial",
    "Cackle.Main.C14_warning_livelock"
   ],
   "note": "Refuted: a possible-exported-API warning is re-reported forever; proved when warnings fail the run or no export is found."
  },
  {
   "property": "C140",
   "status": "partial",
   "theorems": [
    "Cackle.Graph.C140_reported_partial",
    "Cackle.Graph.C140_shim",
    "Cackle.Graph.C140_recognised",
    "Cackle.Graph.C140_other_object"
   ],
   "note": "Holds if each object file defines those functions of core::ops::function that it refers to. C140_other_object refutes the full claim: if the function is in another object file, then it is neither followed nor checked itself, and the use of the API is not reported. For symbols with legacy mangling."
  },
  {
   "property": "C141",
   "status": "partial",
   "theorems": [
    "Cackle.ConfigFile.C141_partial",
    "Cackle.ConfigFile.C141_misspelt",
    "Cackle.ConfigFile.C141_documented_refused",
    "Cackle.ConfigFile.C141_documented",
    "Cackle.ConfigFile.C141_unused_setting"
   ],
   "note": "For settings that imports and relative paths do not change. C141_documented refutes that everything in CONFIG.md is accepted: the documented kind = \"Disable\" is refused. C141_unused_setting refutes that every accepted setting has an effect: import in a section of a package is accepted and ignored. Trusted: the TOML parser."
  },
  {
   "property": "C142",
   "status": "partial",
   "theorems": [
    "Cackle.ConfigFile.C142_partial",
    "Cackle.ConfigFile.C142_member",
    "Cackle.ConfigFile.C142_refuted"
   ],
   "note": "The directory is the innermost one with a Cargo.toml, and it is an error exactly if there is none. C142_member and C142_refuted: in a member of a workspace the config file is looked for in the directory of the member, not in the root of the workspace as CONFIG.md says."
  },
  {
   "property": "C143",
   "status": "partial",
   "theorems": [
    "Cackle.Graph.C143_partial",
    "Cackle.Graph.C143_unlinked",
    "Cackle.Graph.C143_tombstone",
    "Cackle.Graph.C143_no_fallback"
   ],
   "note": "For linkers that mark removed code with the address 0 or 1. C143_tombstone refutes it for lld, which writes the greatest address: the removed code is reported. C143_no_fallback: without symbols in the binary nothing is found in object files; the documented use of debug information instead does not exist."
  },
  {
   "property": "C144",
   "status": "partial",
   "theorems": [
    "Cackle.Checker.C144_partial",
    "Cackle.Checker.C144_at_the_same_time",
    "Cackle.Checker.C144_several_files",
    "Cackle.Checker.C144_refuted"
   ],
   "note": "If compilations with the same package and kind follow each other and each run of rustc links at most one file. C144_at_the_same_time: of two compilations at the same time one may end successfully although its binary was not looked at. C144_several_files: of two files linked by one run only the first one is looked at. That cargo runs a program only after its compilation has ended successfully is trusted; that the wrapper ends successfully only after being told to continue is C23."
  },
  {
   "property": "C145",
   "status": "partial",
   "theorems": [
    "Cackle.Read.C145_partial",
    "Cackle.Read.C145_parts",
    "Cackle.Read.C145_entry",
    "Cackle.Read.C145_debug_info",
    "Cackle.Read.C145_missing",
    "Cackle.Read.C145_refuted"
   ],
   "note": "All readable entries of libraries and all other files are examined and errors in them are errors. C145_entry: entries whose header cannot be read are skipped. C145_debug_info: if the debug information of the binary is damaged, it is taken as empty and nothing at all is found. C145_missing: files that cannot be resolved are skipped. C145_parts connects this with C122."
  },
  {
   "property": "C146",
   "status": "partial",
   "theorems": [
    "Cackle.Report.C146_partial",
    "Cackle.Report.C146_off_tree",
    "Cackle.Report.C146_refuted",
    "Cackle.Report.C146_unsafe",
    "Cackle.Report.C146_unused"
   ],
   "note": "Holds for all kinds of problem except that the text for an API of a package that is no dependency does not tell the scope (C146_off_tree). Messages given as text by other parts are left out."
  },
  {
   "property": "C147",
   "status": "partial",
   "theorems": [
    "Cackle.Report.C147_partial",
    "Cackle.Report.C147_headings",
    "Cackle.Report.C147_same_function",
    "Cackle.Report.C147_spelling",
    "Cackle.Report.C147_refuted"
   ],
   "note": "Holds for files, functions and uses of different functions. C147_same_function: uses in the same function are listed in the order found, which depends on a hash map. C147_spelling: a file whose name is written in two ways is listed under the first one found."
  },
  {
   "property": "C148",
   "status": "partial",
   "theorems": [
    "Cackle.Ui.C148_keys_partial",
    "Cackle.Ui.C148_others_partial",
    "Cackle.Ui.C148_backtrace_keys"
   ],
   "note": "Refuted: in the backtrace, the keys that select a frame and that lead back are not listed (C148_backtrace_keys). Proved for the lists of problems, edits and usages: each listed key does what is said, and keys that are not listed do nothing. Not covered: the left column of the help is five columns wide, so that `space/enter/f` is cut off."
  },
  {
   "property": "C149",
   "status": "proved",
   "theorems": [
    "Cackle.Ui.C149_details",
    "Cackle.Ui.C149_notes",
    "Cackle.Ui.C149_off_tree",
    "Cackle.Ui.C149_places"
   ],
   "note": "Holds up to the size of the screen. That the keys lead to each place is C135."
  },
  {
   "property": "C15",
   "status": "proved",
   "theorems": [
    "Cackle.Main.C15_success",
    "Cackle.Main.C15_not_built",
    "Cackle.Main.C15_succeeds"
   ],
   "note": ""
  },
  {
   "property": "C150",
   "status": "partial",
   "theorems": [
    "Cackle.Ui.C150_refuted",
    "Cackle.Ui.C150_api_refuted",
    "Cackle.Ui.C150_rows_partial",
    "Cackle.Ui.C150_row_says"
   ],
   "note": "Refuted: the column is not shown (C150_refuted), and for uses of an API neither file nor line is (C150_api_refuted). Proved for unsafe code and extern blocks: same row, same line of the same file."
  },
  {
   "property": "C151",
   "status": "partial",
   "theorems": [
    "Cackle.Ui.C151_refuted",
    "Cackle.Ui.C151_package",
    "Cackle.Ui.C151_text_partial",
    "Cackle.Ui.C151_shown"
   ],
   "note": "Refuted: the description can have several lines, so that it can contain what looks like the lines with the version and the directory (C151_refuted). Proved: the package is the one that the row of the problem names first; the last line gives its directory; without line breaks in the values, the lines are as expected."
  },
  {
   "property": "C152",
   "status": "partial",
   "theorems": [
    "Cackle.ShowDiff.C152_refuted",
    "Cackle.ShowDiff.C152_shown_partial",
    "Cackle.ShowDiff.C152_changes"
   ],
   "note": "Refuted: where the changes are is not shown, and two packages with the same permissions give the same diff (C152_refuted). Proved exactly: which lines are shown, and that no change is hidden."
  },
  {
   "property": "C153",
   "status": "partial",
   "theorems": [
    "Cackle.NewVersion.C153_refuted",
    "Cackle.NewVersion.C153_said",
    "Cackle.NewVersion.C153_reaches_newest_partial"
   ],
   "note": "Refuted: a table common with braces cannot be edited (C153_refuted). Proved for all other files and all choices."
  },
  {
   "property": "C154",
   "status": "partial",
   "theorems": [
    "Cackle.ShowDiff.C154_refuted",
    "Cackle.ShowDiff.C154_initial_partial",
    "Cackle.ShowDiff.C154_verify"
   ],
   "note": "Refuted: a bwrap that can be started but fails is accepted (C154_refuted). Proved: the first configuration, and when a choice is refused."
  },
  {
   "property": "C155",
   "status": "partial",
   "theorems": [
    "Cackle.Options.C155_asks",
    "Cackle.Options.C155_auto_accept_ignored",
    "Cackle.Options.C155_interactive_ignores",
    "Cackle.Options.C155_fail_on_warnings_ignored",
    "Cackle.Options.C155_options_partial",
    "Cackle.Options.C155_quiet_warns",
    "Cackle.Options.C155_quiet_partial"
   ],
   "note": "Refuted: both options are ignored at a terminal (C155_auto_accept_ignored, C155_interactive_ignores), --fail-on-warnings is ignored by test and run (C155_fail_on_warnings_ignored), --quiet prints warnings (C155_quiet_warns). Proved: when the user is asked, and what the options do otherwise."
  },
  {
   "property": "C156",
   "status": "proved",
   "theorems": [
    "Cackle.Options.C156_problems",
    "Cackle.Options.C156_failure_is_explained"
   ],
   "note": "For the user interface that does not ask."
  },
  {
   "property": "C157",
   "status": "partial",
   "theorems": [
    "Cackle.Ui.C157_message_partial",
    "Cackle.Ui.C157_auto_accept",
    "Cackle.Ui.C157_refuted",
    "Cackle.Ui.C157_help",
    "Cackle.Ui.C157_help_cut",
    "Cackle.Ui.C157_comment",
    "Cackle.Ui.C157_centred"
   ],
   "note": "Refuted: on a terminal with fewer than 161 columns the question about accepting automatically does not show how to answer, whatever the number of rows (C157_auto_accept, C157_refuted); the column of keys in the help is cut (C157_help_cut). Proved: texts of which every line fits."
  },
  {
   "property": "C158",
   "status": "partial",
   "theorems": [
    "Cackle.Checker.C158_inherited",
    "Cackle.Checker.C158_told",
    "Cackle.Checker.C158_effect_partial"
   ],
   "note": "Refuted: a kind of sandbox in the section of a package is said to make no sense but is inherited by its build script and tests (C158_inherited). Proved exactly: when the message appears, and when the removal changes how a program is run."
  },
  {
   "property": "C159",
   "status": "partial",
   "theorems": [
    "Cackle.CrateIndex.C159_benchmarks",
    "Cackle.CrateIndex.C159_no_effect_partial",
    "Cackle.Checker.C159_told"
   ],
   "note": "Refuted: the test section of a package that has only benchmarks is said to be unused but holds the permissions of the benchmarks (C159_benchmarks). Proved for all packages without such benchmarks."
  },
  {
   "property": "C16",
   "status": "partial",
   "theorems": [
    "Cackle.LibTree.C16_partial",
    "Cackle.LibTree.C16_same_version"
   ],
   "note": "Exact for all acyclic graphs whose packages have different identities. Refuted: packages of the same name and version from different sources are taken for one, and the dependencies of the one listed first are recorded. Running cargo tree is not modelled (its exit status is not checked by the code)."
  },
  {
   "property": "C160",
   "status": "partial",
   "theorems": [
    "Cackle.Checker.C160_moved_permission",
    "Cackle.Checker.C160_removable_partial"
   ],
   "note": "Refuted: a permission that is moved to the whole package after the build script was checked is reported as unused (C160_moved_permission). Proved for runs during which the configuration is not edited."
  },
  {
   "property": "C161",
   "status": "partial",
   "theorems": [
    "Cackle.Graph.C161_not_normal_partial",
    "Cackle.Graph.C161_itself_partial",
    "Cackle.Graph.C161_dev_dependency",
    "Cackle.Graph.C161_own_code"
   ],
   "note": "Refuted: `cargo tree` is asked for normal dependencies only, so that a development dependency used by tests is called a non-dependency (C161_dev_dependency); and a package whose name has a hyphen is called a non-dependency of itself (C161_own_code). Proved: it is never a normal dependency, and the package itself only if its crate name differs from its name."
  },
  {
   "property": "C162",
   "status": "partial",
   "theorems": [
    "Cackle.Ui.C162_reason_partial",
    "Cackle.Ui.C162_settled_unsaved"
   ],
   "note": "Refuted: when several edits are accepted at once, the problems are settled before the file is written, so that they stay settled if it cannot be written (C162_settled_unsaved). Proved: there is always a reason, the file is unchanged, and without auto-accept no problem is settled."
  },
  {
   "property": "C163",
   "status": "proved",
   "theorems": [
    "Cackle.Ui.C163_life"
   ],
   "note": "Failures of the terminal itself, which end the thread, are not modelled."
  },
  {
   "property": "C164",
   "status": "partial",
   "theorems": [
    "Cackle.Sandboxing.C164_binary_partial",
    "Cackle.Sandboxing.C164_config_partial",
    "Cackle.Sandboxing.C164_target_writable",
    "Cackle.Sandboxing.C164_config_in_target"
   ],
   "note": "Refuted: the whole target directory is writable in the compiler's sandbox, so that a procedural macro can replace a build script after it was checked (C164_target_writable); and the configuration too if the temporary directory lies there (C164_config_in_target). Proved for build scripts and tests, and for rustc and the configuration if the temporary directory is not in the target directory."
  },
  {
   "property": "C165",
   "status": "partial",
   "theorems": [
    "Cackle.Sandboxing.C165_variables_partial",
    "Cackle.Sandboxing.C165_socket_partial",
    "Cackle.Sandboxing.C165_socket_visible"
   ],
   "note": "Refuted: with a temporary directory outside the home directory, /var and /tmp the socket is visible (C165_socket_visible). Proved: the variables are never visible, and the socket is hidden for temporary directories in those places."
  },
  {
   "property": "C166",
   "status": "partial",
   "theorems": [
    "Cackle.Rustc.C166_compiled_partial",
    "Cackle.Rustc.C166_shebang_hides_code"
   ],
   "note": "Refuted: after a first line such as #!/x with a quotation mark the scan takes the code that follows for a string literal, whereas the compiler ignores the line (C166_shebang_hides_code). Proved for files without a shebang line and for those whose shebang line is a sequence of complete tokens. That the compiler ignores such a line is part of the specification, not of the model."
  },
  {
   "property": "C167",
   "status": "partial",
   "theorems": [
    "Cackle.Rustc.C167_approved_partial",
    "Cackle.Rustc.C167_refused_partial",
    "Cackle.Rustc.C167_own_failure",
    "Cackle.Rustc.C167_accepted_partial",
    "Cackle.Rustc.C167_unreadable_partial",
    "Cackle.Rustc.C167_backslash"
   ],
   "note": "Refuted for source files with a backslash in their name, about which nobody is asked (C167_backslash, as in C23 and C24). Proved for all others. The scan also reports an unsafe or extern that is the last token of a file in some cases (C22), hence the word Occurs where nothing is to be reported."
  },
  {
   "property": "C168",
   "status": "partial",
   "theorems": [
    "Cackle.Checker.C168_settled_partial",
    "Cackle.Checker.C168_linked_twice"
   ],
   "note": "Refuted for a crate that is linked twice by one rustc (crate types dylib and cdylib, or a linker that rustc calls again with other options after it failed): one completion takes one link only, and the run is refused (C168_linked_twice). Proved for compilations that link at most once, for all interleavings, retries and changes of the configuration."
  },
  {
   "property": "C169",
   "status": "partial",
   "theorems": [
    "Cackle.Fixes.C169_restricted_partial",
    "Cackle.Fixes.C169_included_partial",
    "Cackle.Fixes.C169_hyphen",
    "Cackle.Fixes.C169_included_hyphen"
   ],
   "note": "Refuted for packages with a hyphen in their name: the offered path begins with the name of the package (my-p::fs) and not of the crate (my_p::fs), so that accepting it makes the report go away and restricts nothing (C169_hyphen), and a package whose module is included under its right name is reported again (C169_included_hyphen). Proved for all other packages."
  },
  {
   "property": "C17",
   "status": "proved",
   "theorems": [
    "Cackle.BuildScript.C17_instructions_reported"
   ],
   "note": ""
  },
  {
   "property": "C170",
   "status": "partial",
   "theorems": [
    "Cackle.Rustc.C170_read_partial",
    "Cackle.Rustc.C170_newest_partial",
    "Cackle.Rustc.C170_guarded",
    "Cackle.Rustc.C170_raw_lifetime",
    "Cackle.Rustc.C170_raw_c_string"
   ],
   "note": "Refuted: the lexer library gives the tokens of the newest edition, and the compiler splits some of them again in older editions; cackle does not. Thus code after #\" (up to edition 2021), in 'r#unsafe and in cr#\"...\"# (up to edition 2018) is hidden from the scan. Proved for files without such tokens, and for edition 2024 without condition. How the compiler splits tokens is part of the specification (rereads), not of the model."
  },
  {
   "property": "C171",
   "status": "partial",
   "theorems": [
    "Cackle.Toolchain.C171_toolchain_partial",
    "Cackle.Toolchain.C171_compiler",
    "Cackle.Toolchain.C171_no_rustup",
    "Cackle.Toolchain.C171_path"
   ],
   "note": "Refuted: rustup is asked for the compiler in the directory in which cackle was started, cargo and rustc --print sysroot are run in the directory of the project. With --path and a toolchain file the compiler can be another one. Proved if RUSTUP_TOOLCHAIN is set (as for cargo acl), and if cackle is started in the project and no toolchain is chosen for a directory between. How rustup selects is part of the specification (Rustup.of), not of the model."
  },
  {
   "property": "C172",
   "status": "partial",
   "theorems": [
    "Cackle.Rustc.C172_scanned_partial",
    "Cackle.Rustc.C172_not_found",
    "Cackle.Rustc.C172_second_emit"
   ],
   "note": "Refuted: with RUSTFLAGS=--emit=asm rustc still lists its source files, but the wrapper takes the last --emit option only and then scans nothing, so that unsafe code without permission is compiled. Proved for command lines in the form that cargo uses whose last --emit option asks for dep-info; and if the place of the list is not told in that form, success is never reported."
  },
  {
   "property": "C173",
   "status": "partial",
   "theorems": [
    "Cackle.Settings.C173_settings_partial",
    "Cackle.Settings.C173_edit",
    "Cackle.Settings.C173_stale",
    "Cackle.Settings.C173_clean_stale"
   ],
   "note": "Refuted: the configuration for cargo is copied before the questions about unused imports and the last loading, and the profile to clean before all questions; changes that the user makes in the file meanwhile are then in force but not used. Proved if the file is changed by offered edits only: no edit changes these settings (C173_edit)."
  },
  {
   "property": "C174",
   "status": "partial",
   "theorems": [
    "Cackle.Comments.C174_add_partial",
    "Cackle.Comments.C174_remove_partial",
    "Cackle.Comments.C174_set_partial",
    "Cackle.Comments.C174_values",
    "Cackle.Comments.C174_keys",
    "Cackle.Comments.C174_supported",
    "Cackle.Comments.C174_moved",
    "Cackle.Comments.C174_removed",
    "Cackle.Comments.C174_lost",
    "Cackle.Comments.C174_Claim_false"
   ],
   "note": "Refuted: a comment behind a list element belongs to the next element for the editor, so adding puts it behind the new element and removing the next element deletes it; a comment behind a setting is lost when the setting is changed, and one above it is replaced by the entered one. Proved for lists whose comments are on lines of their own above the elements, and for all other settings of a table. For all lists and tables: comments change no value and end with their lines; if the comment input opens, the entered comment is written about the added value."
  },
  {
   "property": "C175",
   "status": "partial",
   "theorems": [
    "Cackle.FileNames.C175_canonical",
    "Cackle.FileNames.C175_relative_partial",
    "Cackle.FileNames.C175_nobody",
    "Cackle.FileNames.C175_through_sysroot",
    "Cackle.FileNames.C175_through_package",
    "Cackle.FileNames.C175_nested",
    "Cackle.FileNames.C175_refuted"
   ],
   "note": "Refuted: recorded names are canonical, names in debug information are not. A file that is included by an absolute name through the directory of the toolchain counts as nobody's and is not analysed; through the directory of another package (or, also by a relative name, of a package inside this one) it counts as that package's only. Proved for canonical names, and for names relative to the package that do not lead through a package inside it."
  },
  {
   "property": "C176",
   "status": "partial",
   "theorems": [
    "Cackle.Links.C176_partial",
    "Cackle.Links.C176_in_place",
    "Cackle.Links.C176_link",
    "Cackle.Links.C176_hard_link",
    "Cackle.Links.C176_mode",
    "Cackle.Links.C176_lost",
    "Cackle.Links.C176_through",
    "Cackle.Links.C176_refuted"
   ],
   "note": "Refuted: a config file that is a symbolic link is replaced by a file and the file it leads to keeps the old contents, other hard links keep the old contents, the mode becomes that of new files, a file called cackle.tmp is lost, and a link called cackle.tmp is written through and becomes the config file. Proved for an ordinary file of the usual mode if there is no cackle.tmp, and for names ending in .tmp."
  },
  {
   "property": "C177",
   "status": "partial",
   "theorems": [
    "Cackle.BuildDir.C177_partial",
    "Cackle.BuildDir.C177_cli",
    "Cackle.BuildDir.C177_older_partial",
    "Cackle.BuildDir.C177_older_config",
    "Cackle.BuildDir.C177_older_member",
    "Cackle.BuildDir.C177_nothing_scanned",
    "Cackle.BuildDir.C177_nothing_found",
    "Cackle.BuildDir.C177_flags",
    "Cackle.BuildDir.C177_refuted"
   ],
   "note": "Refuted: the directory is set by CARGO_BUILD_BUILD_DIR, which cargo before 1.91 does not know. It then uses the target directory of its own config (build.target-dir, CARGO_BUILD_TARGET_DIR) or of the workspace if cackle was started in a member; no object file is scanned and no API is found. Flags that set build.build-dir have the same effect. Proved for newer versions without such flags, and for older ones if CARGO_TARGET_DIR or nothing is set."
  },
  {
   "property": "C178",
   "status": "partial",
   "theorems": [
    "Cackle.Products.C178_partial",
    "Cackle.Products.C178_library",
    "Cackle.Products.C178_refuted"
   ],
   "note": "Refuted: rustc starts no linker for static libraries, so cackle is told nothing about them and does not analyse them. If a build makes only static libraries and libraries for other crates, nothing at all is analysed and the run succeeds (C178_library). Proved for executables, dynamic libraries and procedural macros, if no problems were found in crates that were linked twice (C08). By default cackle passes `--all-targets`, so that a library is also compiled as a test, which is analysed; C178_library applies with other build flags or with `test = false`."
  },
  {
   "property": "C179",
   "status": "partial",
   "theorems": [
    "Cackle.Compilers.C179_first",
    "Cackle.Compilers.C179_partial",
    "Cackle.Compilers.C179_other_name",
    "Cackle.Compilers.C179_examples",
    "Cackle.Compilers.C179_refuted"
   ],
   "note": "Refuted: `cargo acl test` without an option that says what to test has the examples in the documentation compiled, linked and run by `rustdoc`, which cargo starts without any wrapper, so that code is neither analysed nor sandboxed (C179_examples). With a wrapper for the workspace or a compiler of another name cackle fails or takes itself for a linker (C179_other_name). Proved for builds, runs and tests that do not include examples, with a compiler called rustc. Cargo's choice of programs is a specification (trusted)."
  },
  {
   "property": "C18",
   "status": "proved",
   "theorems": [
    "Cackle.BuildScript.C18_patterns",
    "Cackle.BuildScript.C18_cuts"
   ],
   "note": ""
  },
  {
   "property": "C180",
   "status": "partial",
   "theorems": [
    "Cackle.Checker.C180_partial",
    "Cackle.Checker.C180_forged",
    "Cackle.Checker.C180_refuted",
    "Cackle.Sandboxing.C180_reachable"
   ],
   "note": "Refuted: the socket is writable in the compiler's sandbox and its path is in the environment (C180_reachable), so a procedural macro can report that the crate was linked into another file too; when problems in that file are fixed, its scan results are used for the file that was really linked (C180_forged). Proved for all other forged requests: the file is analysed if no other file of its crate is reported as linked, or no problems were found in that crate."
  },
  {
   "property": "C181",
   "status": "partial",
   "theorems": [
    "Cackle.Invalid.C181_all",
    "Cackle.Invalid.C181_partial",
    "Cackle.Invalid.C181_run_together",
    "Cackle.Invalid.C181_dep",
    "Cackle.Invalid.C181_refuted"
   ],
   "note": "Refuted: several problems are written on one line without separators (C181_run_together), and a section `pkg.p.build.from` is reported as `pkg.p.build.dep`, which does not exist (C181_dep). Proved: all problems are described and nothing else is, in any order of the packages (C181_all); with a single problem the message has the lines claimed (C181_partial)."
  },
  {
   "property": "C182",
   "status": "partial",
   "theorems": [
    "Cackle.Graph.C182_partial",
    "Cackle.Graph.C182_lib",
    "Cackle.Graph.C182_generic",
    "Cackle.Graph.C182_refuted"
   ],
   "note": "Refuted: the name of the library is taken to be that of the package with underscores, so packages whose manifest gives the library another name are never asked about (C182_lib); generic functions in the new mangling scheme, methods in further impl blocks and trait methods in the old scheme are not recognised (C182_generic). Proved for plain functions of libraries named like their package, if no other crate has symbols from that package's files in a module of that name (see C47)."
  },
  {
   "property": "C183",
   "status": "partial",
   "theorems": [
    "Cackle.Ui.C183_partial",
    "Cackle.Ui.C183_unreadable",
    "Cackle.Ui.C183_refuted",
    "Cackle.NullUi.C183_auto_accept_partial",
    "Cackle.NullUi.C183_auto_accept_unreadable"
   ],
   "note": "Refuted: from_file treats a file that cannot be read, for example because it is not UTF-8, as empty, so accepting an edit replaces the whole file by that edit and no error is shown (C183_unreadable, C183_auto_accept_unreadable). Proved for files that can be read at the time. The editor is a parameter, as in C86; how bytes are read is a parameter too."
  },
  {
   "property": "C184",
   "status": "partial",
   "theorems": [
    "Cackle.Basic.C184_partial",
    "Cackle.Basic.C184_overwritten",
    "Cackle.Basic.C184_refuted"
   ],
   "note": "Refuted: whether there is a config file is looked at only before the questions, so one that appears meanwhile is replaced by the initial configuration when the user presses enter (C184_overwritten). Proved if there has been a config file all the time since the start, given that a missing file is reported only if it is missing (main.rs:472-479). For files that cannot be read see C183."
  },
  {
   "property": "C185",
   "status": "partial",
   "theorems": [
    "Cackle.LibTree.C185_partial",
    "Cackle.LibTree.C185_failed_command",
    "Cackle.LibTree.C185_skipped_line",
    "Cackle.LibTree.C185_refuted"
   ],
   "note": "Refuted: the exit status of cargo tree is not looked at, so that a failure without output gives an empty tree (C185_failed_command); lines with fewer than four fields are skipped (C185_skipped_line). Proved: all lines with at least four fields are understood, the command could be started and its output is UTF-8."
  },
  {
   "property": "C186",
   "status": "partial",
   "theorems": [
    "Cackle.Ui.C186_partial",
    "Cackle.Ui.C186_places_have_edits",
    "Cackle.Ui.C186_empty_list",
    "Cackle.Ui.C186_refuted"
   ],
   "note": "Refuted: whether there is an edit is not looked at in the list of places; after auto-accept was confirmed, a problem before the selected one can be resolved while places are listed, so that another problem becomes the selected one, which may have no edit (C186_empty_list). Proved: as long as auto-accept was not confirmed, with the edits of the real program; every problem about places has an edit (C186_places_have_edits)."
  },
  {
   "property": "C19",
   "status": "proved",
   "theorems": [
    "Cackle.Editor.C19_exact_grant",
    "Cackle.Editor.C19_problem_gone",
    "Cackle.Editor.C19_granted_once"
   ],
   "note": "For documents that are accepted; an edit that fails (inline tables, see C64) changes nothing."
  },
  {
   "property": "C20",
   "status": "partial",
   "theorems": [
    "Cackle.Editor.C20_add_partial",
    "Cackle.Editor.C20_duplicates"
   ],
   "note": "Refuted: adding to an unsorted list may duplicate a value. Proved: everything else, and no duplicates for sorted lists."
  },
  {
   "property": "C21",
   "status": "partial",
   "theorems": [
    "Cackle.Scan.C21_unsafe_partial",
    "Cackle.Scan.C21_last_token_missed"
   ],
   "note": "Refuted for the last token of a file; exact condition proved for all token lists."
  },
  {
   "property": "C22",
   "status": "partial",
   "theorems": [
    "Cackle.Scan.C22_extern_partial",
    "Cackle.Scan.C22_last_token_missed",
    "Cackle.Scan.C22_unsafe_extern_crate_missed",
    "Cackle.Scan.C22_together_partial"
   ],
   "note": "Refuted for the last token and for `unsafe extern` followed by crate, ] or ); exact condition proved for all token lists."
  },
  {
   "property": "C23",
   "status": "partial",
   "theorems": [
    "Cackle.Rustc.C23_compiled_partial",
    "Cackle.Rustc.C23_backslash_not_scanned"
   ],
   "note": "Refuted: a source path containing a backslash is not scanned because the dependency file is unescaped wrongly; proved for other paths."
  },
  {
   "property": "C24",
   "status": "partial",
   "theorems": [
    "Cackle.Deps.C24_paths_partial",
    "Cackle.Deps.C24_backslash_lost",
    "Cackle.Deps.C24_no_dep_info"
   ],
   "note": "Refuted for paths containing a backslash; proved for all other paths."
  },
  {
   "property": "C25",
   "status": "proved",
   "theorems": [
    "Cackle.Wire.C25_framing",
    "Cackle.Wire.C25_round_trip"
   ],
   "note": "Framing is proved for arbitrary byte strings; for the JSON text of requests and answers see C119 and C121."
  },
  {
   "property": "C26",
   "status": "partial",
   "theorems": [
    "Cackle.Fs.C26_atomic_partial",
    "Cackle.Fs.C26_tmp_extension"
   ],
   "note": "Refuted for paths whose extension is already `tmp`; proved for all other paths."
  },
  {
   "property": "C27",
   "status": "partial",
   "theorems": [
    "Cackle.Names.C27_legacy_path_partial",
    "Cackle.Names.C27_underscore",
    "Cackle.Names.C27_mut",
    "Cackle.LegacySymbols.C27_unicode"
   ],
   "note": "Holds for identifiers without a leading underscore other than mut; C27_underscore refutes the full claim: a leading underscore is removed. C27_unicode: an identifier with letters outside of ASCII is cut off."
  },
  {
   "property": "C28",
   "status": "partial",
   "theorems": [
    "Cackle.Names.C28_symbols_partial",
    "Cackle.Names.C28_debug_names",
    "Cackle.Names.C28_not_terminating"
   ],
   "note": "Debug names and all v0 symbols: always. Legacy symbols: if every component with escapes has an even number of dollar signs; C28_not_terminating refutes the full claim with an unclosed escape."
  },
  {
   "property": "C29",
   "status": "partial",
   "theorems": [
    "Cackle.Names.C29_ascii_partial",
    "Cackle.Names.C29_panics",
    "Cackle.Names.C29_panics_v0",
    "Cackle.Names.C28_debug_names"
   ],
   "note": "ASCII symbols and all debug names never panic; C29_panics and C29_panics_v0 refute the full claim with symbols outside of ASCII. Running out of stack is not modelled."
  },
  {
   "property": "C30",
   "status": "proved",
   "theorems": [
    "Cackle.Graph.C30_targets",
    "Cackle.Graph.C30_panics"
   ],
   "note": "An object file with a symbol in a section above all sections makes the index panic (C30_panics, exact condition); otherwise the search ends with exactly the reachable symbols, or with an error if a reachable target is invalid."
  },
  {
   "property": "C31",
   "status": "proved",
   "theorems": [
    "Cackle.Graph.C31_shortest",
    "Cackle.Graph.C31_pairs"
   ],
   "note": ""
  },
  {
   "property": "C32",
   "status": "partial",
   "theorems": [
    "Cackle.Graph.C32_cache_partial",
    "Cackle.Graph.C32_other_name"
   ],
   "note": "Refuted: the cache is kept per symbol, so an inlined function with the same symbol but another debug name is skipped. Proved if debug info names inlined functions as it names their symbols."
  },
  {
   "property": "C33",
   "status": "proved",
   "theorems": [
    "Cackle.Checker.C33_owner"
   ],
   "note": ""
  },
  {
   "property": "C34",
   "status": "partial",
   "theorems": [
    "Cackle.Identity.C34_identity_partial",
    "Cackle.Identity.C34_build_script_name"
   ],
   "note": "Refuted for a crate whose name starts with build_script_ compiled with --test: rustc and linker wrappers disagree; everything else is proved."
  },
  {
   "property": "C35",
   "status": "proved",
   "theorems": [
    "Cackle.Sandboxing.C35_recorded",
    "Cackle.Sandboxing.C35_reaches"
   ],
   "note": ""
  },
  {
   "property": "C36",
   "status": "proved",
   "theorems": [
    "Cackle.Sandboxing.C36_isolation",
    "Cackle.Sandboxing.C36_isolation_rustc"
   ],
   "note": "Relative to the stated semantics of bwrap's options (Props/SandboxSpec.lean)."
  },
  {
   "property": "C37",
   "status": "partial",
   "theorems": [
    "Cackle.BinProxy.C37_sandboxed_partial",
    "Cackle.BinProxy.C37_no_args_partial",
    "Cackle.BinProxy.C37_arguments_doubled",
    "Cackle.BinProxy.C37_not_checked"
   ],
   "note": "Refuted twice: without a sandbox arguments are passed twice and build script output is not checked. Proved: sandboxed runs, and transparency for binaries run without arguments."
  },
  {
   "property": "C38",
   "status": "proved",
   "theorems": [
    "Cackle.Perm.C38_validation"
   ],
   "note": ""
  },
  {
   "property": "C39",
   "status": "partial",
   "theorems": [
    "Cackle.Config.C39_import_std",
    "Cackle.Config.C39_import_pkg",
    "Cackle.Config.C39_import_missing_package",
    "Cackle.Config.C39_missing_export_ignored"
   ],
   "note": "An import that the package does not export is silently ignored (refuted by C39_missing_export_ignored); the rest is proved."
  },
  {
   "property": "C40",
   "status": "partial",
   "theorems": [
    "Cackle.Perm.C40_global_paths_stay_relative",
    "Cackle.Perm.C40_from_paths_stay_relative",
    "Cackle.Perm.C40_paths_partial"
   ],
   "note": "[sandbox], [rustc.sandbox] and from.* sections are not made absolute (refuted); pkg, build and test sections are proved."
  },
  {
   "property": "C41",
   "status": "proved",
   "theorems": [
    "Cackle.Diff.C41_trim"
   ],
   "note": "Also: the result is within the limit or has no context, and a diff within the limit is unchanged."
  },
  {
   "property": "C42",
   "status": "partial",
   "theorems": [
    "Cackle.Diff.C42_headers_partial",
    "Cackle.Diff.C42_changes",
    "Cackle.Diff.C42_next_section",
    "Cackle.Diff.C42_trimmed"
   ],
   "note": "Refuted: the first header after a change is dropped, so a change in the next section is shown below the wrong header; trimming can also cut out the header. Proved if no two successive changes have exactly one header between them. The result of the diff crate is arbitrary."
  },
  {
   "property": "C43",
   "status": "partial",
   "theorems": [
    "Cackle.Backtrace.C43_backtrace_partial",
    "Cackle.Backtrace.C43_overlap",
    "Cackle.Backtrace.C43_not_longest",
    "Cackle.Ui.C43_frames",
    "Cackle.Ui.C43_rows"
   ],
   "note": "The search ends and gives only call chains, for all binaries; a chain is found if there is one and no address is in two functions. Refuted without that: C43_overlap. C43_not_longest refutes the comment in the code that the longest chain is found."
  },
  {
   "property": "C44",
   "status": "partial",
   "theorems": [
    "Cackle.Dwarf.C44_functions_partial",
    "Cackle.Dwarf.C44_references_partial",
    "Cackle.Dwarf.C44_any_unit",
    "Cackle.Dwarf.C44_fails",
    "Cackle.Dwarf.C44_enumeration"
   ],
   "note": "Exact for functions in namespaces and structures, and for references within a unit. Refuted: a reference to another unit is followed to the right entry, but gets the namespace of whatever is at the same offset of the current unit; functions in enumeration and union types get no namespace."
  },
  {
   "property": "C45",
   "status": "partial",
   "theorems": [
    "Cackle.Wire.C45_replay_partial",
    "Cackle.Wire.C45_order_lost"
   ],
   "note": "Refuted above 1000 saved requests (three-digit names sort wrongly); proved up to 1000."
  },
  {
   "property": "C46",
   "status": "partial",
   "theorems": [
    "Cackle.Editor.C46_build_script_partial",
    "Cackle.Editor.C46_test_not_affected"
   ],
   "note": "Refuted for tests: the edits change the build script's sandbox. Proved for build scripts."
  },
  {
   "property": "C47",
   "status": "partial",
   "theorems": [
    "Cackle.Graph.C47_exports_partial",
    "Cackle.Graph.C47_sound",
    "Cackle.Graph.C47_paths",
    "Cackle.Graph.C47_macro",
    "Cackle.Graph.C47_order"
   ],
   "note": "Refuted: a pair is marked as seen before the crate name is compared, so a symbol of another crate located in the package (made by a macro) that comes first hides the export; C47_order shows both orders. Proved: what is reported is right and reported once, and it is exact if no such symbol exists."
  },
  {
   "property": "C48",
   "status": "partial",
   "theorems": [
    "Cackle.Prefix.C48_exact",
    "Cackle.Prefix.C48_prefixes_partial",
    "Cackle.Prefix.C48_duplicates"
   ],
   "note": "Exactly the common prefixes, sorted, one text each. Refuted: two prefixes have the same text if a namespace in debug info contains colons, so there may be duplicates."
  },
  {
   "property": "C49",
   "status": "partial",
   "theorems": [
    "Cackle.Summary.C49_lists",
    "Cackle.Summary.C49_by_permission",
    "Cackle.Summary.C49_counts_partial",
    "Cackle.Summary.C49_tests_ignored",
    "Cackle.Summary.C49_api_name"
   ],
   "note": "The lists are exact. Refuted: permissions of tests are ignored, so a package counted as having no special permissions may have some; an API named proc_macro... is taken for the proc macro permission. Build instructions and sandbox settings are not part of the summary."
  },
  {
   "property": "C50",
   "status": "proved",
   "theorems": [
    "Cackle.Perm.C50_scope",
    "Cackle.Perm.C50_unconditional_grant"
   ],
   "note": ""
  },
  {
   "property": "C51",
   "status": "partial",
   "theorems": [
    "Cackle.Main.C51_clean_started_partial",
    "Cackle.Main.C51_failed_clean_ignored"
   ],
   "note": "The exit status of cargo clean is ignored (refuted)."
  },
  {
   "property": "C52",
   "status": "partial",
   "theorems": [
    "Cackle.NullUi.C52_answered_partial",
    "Cackle.NullUi.C52_progress",
    "Cackle.NullUi.C52_waits_forever"
   ],
   "note": "Refuted: an error while auto-accepting (e.g. unwritable config) ends the UI thread and later reporters wait forever; proved while the UI thread is alive."
  },
  {
   "property": "C53",
   "status": "partial",
   "theorems": [
    "Cackle.Config.C53_process_partial",
    "Cackle.Config.C53_unix_process_missed",
    "Cackle.Config.C53_coverage"
   ],
   "note": "The built-in lists std::unix::process instead of std::os::unix::process (refuted); proved for std::process."
  },
  {
   "property": "C54",
   "status": "partial",
   "theorems": [
    "Cackle.BuildScript.C54_reported_partial",
    "Cackle.BuildScript.C54_indented_not_reported"
   ],
   "note": "Refuted for indented instructions (cargo trims lines, cackle does not); proved for lines without leading white space."
  },
  {
   "property": "C55",
   "status": "partial",
   "theorems": [
    "Cackle.Lexer.C55_no_shebang_partial",
    "Cackle.Lexer.C55_shebang_hides_code"
   ],
   "note": "Refuted: a #! line containing /* hides the rest of the file from the scan; proved for files without such a line. The tokeniser is a simplified model."
  },
  {
   "property": "C56",
   "status": "partial",
   "theorems": [
    "Cackle.Rustc.C56_command_partial",
    "Cackle.Rustc.C56_joined_linker_lost"
   ],
   "note": "Refuted: a linker requested as one argument `-Clinker=lld` is dropped; the rest is proved for all argument lists."
  },
  {
   "property": "C57",
   "status": "partial",
   "theorems": [
    "Cackle.Identity.C57_kind_partial",
    "Cackle.Identity.C57_library_taken_for_build_script"
   ],
   "note": "Refuted: any crate whose name starts with build_script_ is treated as a build script. Proved for all other names."
  },
  {
   "property": "C58",
   "status": "proved",
   "theorems": [
    "Cackle.Sandboxing.C58_home_hidden"
   ],
   "note": "Relative to the stated semantics of bwrap's options."
  },
  {
   "property": "C59",
   "status": "proved",
   "theorems": [
    "Cackle.Sandboxing.C59_writes_confined",
    "Cackle.Sandboxing.C59_writes_confined_rustc"
   ],
   "note": "Relative to the stated semantics of bwrap's options."
  },
  {
   "property": "C60",
   "status": "partial",
   "theorems": [
    "Cackle.Sandboxing.C60_writable_partial",
    "Cackle.Sandboxing.C60_run_hidden",
    "Cackle.Sandboxing.C60_workspace_read_only"
   ],
   "note": "Refuted: directories below /run are hidden, and rustc's manifest directory is bound read-only after the writable ones. Proved for binaries with directories not below those."
  },
  {
   "property": "C61",
   "status": "partial",
   "theorems": [
    "Cackle.Sandboxing.C61_file_hidden_partial",
    "Cackle.Sandboxing.C61_token_leaks",
    "Cackle.Sandboxing.C61_cargo_home_visible"
   ],
   "note": "Refuted: CARGO_REGISTRY_TOKEN is passed, and a cargo home outside the home directory is visible. Proved: the credentials file in the default place is hidden."
  },
  {
   "property": "C62",
   "status": "partial",
   "theorems": [
    "Cackle.Sandboxing.C62_old_spelling_partial",
    "Cackle.Sandboxing.C62_new_spelling_ignored"
   ],
   "note": "Refuted for the cargo:: spelling, proved for the cargo: spelling."
  },
  {
   "property": "C63",
   "status": "proved",
   "theorems": [
    "Cackle.BinProxy.C63_success"
   ],
   "note": ""
  },
  {
   "property": "C64",
   "status": "partial",
   "theorems": [
    "Cackle.Editor.C64_fix_works_partial",
    "Cackle.Editor.C64_extern_no_effect",
    "Cackle.Editor.C64_inline_table"
   ],
   "note": "Refuted: allow_extern has no effect before version 3, and inline tables cannot be edited. Proved otherwise."
  },
  {
   "property": "C65",
   "status": "proved",
   "theorems": [
    "Cackle.Checker.C65_continue_means_checked",
    "Cackle.Checker.C65_repeats"
   ],
   "note": ""
  },
  {
   "property": "C66",
   "status": "proved",
   "theorems": [
    "Cackle.NullUi.C66_auto_accept"
   ],
   "note": ""
  },
  {
   "property": "C67",
   "status": "partial",
   "theorems": [
    "Cackle.NullUi.C67_continue_before_saved",
    "Cackle.NullUi.C67_early_error_partial"
   ],
   "note": "Refuted: problems are resolved, which releases waiters, before the file is written, and writing may fail. Proved: if the file cannot even be opened, nobody is released."
  },
  {
   "property": "C68",
   "status": "partial",
   "theorems": [
    "Cackle.Rustc.C68_second_emit",
    "Cackle.Rustc.C68_joined_extra",
    "Cackle.Rustc.C68_dep_info_path_partial"
   ],
   "note": "Refuted: a second --emit option or a joined -Cextra-filename= is misread. Proved for command lines in the form cargo uses."
  },
  {
   "property": "C69",
   "status": "proved",
   "theorems": [
    "Cackle.Sandboxing.C69_binary",
    "Cackle.Sandboxing.C69_rustc",
    "Cackle.Sandboxing.C69_unusable_refused"
   ],
   "note": "Paths below /dev or /proc and the path of cackle itself are excepted."
  },
  {
   "property": "C70",
   "status": "proved",
   "theorems": [
    "Cackle.Editor.C70_exact_edit",
    "Cackle.Editor.C70_inline_std"
   ],
   "note": "For edits that can be applied; inline tables cannot be edited (C64)."
  },
  {
   "property": "C71",
   "status": "proved",
   "theorems": [
    "Cackle.Editor.C71_possible_export_gone",
    "Cackle.Editor.C71_available_gone"
   ],
   "note": "Definitions written as inline tables excepted (C64)."
  },
  {
   "property": "C72",
   "status": "proved",
   "theorems": [
    "Cackle.Editor.C72_remove_section",
    "Cackle.Editor.C72_remove_grants"
   ],
   "note": "Grants: for sections without repeated entries, which validation requires."
  },
  {
   "property": "C73",
   "status": "proved",
   "theorems": [
    "Cackle.Editor.C73_toggle",
    "Cackle.Editor.C73_toggle_effect"
   ],
   "note": ""
  },
  {
   "property": "C74",
   "status": "partial",
   "theorems": [
    "Cackle.Names.C74_v0_path_partial",
    "Cackle.Names.C74_hash"
   ],
   "note": "Holds unless an identifier has the form of a legacy hash; C74_hash refutes the full claim."
  },
  {
   "property": "C75",
   "status": "partial",
   "theorems": [
    "Cackle.Names.C75_own_path_partial",
    "Cackle.Names.C75_generic_args",
    "Cackle.Names.C75_closure",
    "Cackle.Names.C75_inherent_impl",
    "Cackle.Names.C75_inherent_impl_root"
   ],
   "note": "The item's own path always begins the first name; C75_generic_args refutes the claim for generic arguments, the others show closures and inherent implementations that lose their names."
  },
  {
   "property": "C76",
   "status": "partial",
   "theorems": [
    "Cackle.Names.C76_names_partial",
    "Cackle.Names.C76_namespace_partial",
    "Cackle.Names.C76_trait_args",
    "Cackle.Names.C76_nested",
    "Cackle.Names.C76_keywords",
    "Cackle.Names.C76_hash"
   ],
   "note": "Holds if the generic arguments of the trait in a trait implementation do not begin with a path or contain another trait implementation; C76_trait_args refutes the full claim, C76_nested shows a nested name that is lost, C76_keywords a keyword that becomes part of a name, C76_hash that a function called like a hash is left out."
  },
  {
   "property": "C77",
   "status": "partial",
   "theorems": [
    "Cackle.Graph.C77_reported_partial",
    "Cackle.Graph.C77_off_tree",
    "Cackle.Graph.C77_other_name"
   ],
   "note": "Refuted twice: of several uses at one place only the one with the shortest name is checked, and that one may be ignored because it names a package that is not a dependency (C77_off_tree); and the cache hides names (C77_other_name). Proved for all other cases."
  },
  {
   "property": "C78",
   "status": "partial",
   "theorems": [
    "Cackle.Graph.C78_genuine_partial",
    "Cackle.Graph.C78_other_name"
   ],
   "note": "Refuted: the cache can hide that the referring function is itself part of the API. Proved if debug info names inlined functions as it names their symbols."
  },
  {
   "property": "C79",
   "status": "partial",
   "theorems": [
    "Cackle.Prefix.C79_exclude_partial",
    "Cackle.Prefix.C79_include_partial",
    "Cackle.Prefix.C79_include_new",
    "Cackle.Prefix.C79_exclude_inside",
    "Cackle.Prefix.C79_other_name",
    "Cackle.Prefix.C79_excluded"
   ],
   "note": "Refuted: an exclusion may be offered for another name of the used function (a generic argument), and an inclusion although the path is below an excluded one. Proved if used functions have one name, and if nothing is excluded."
  },
  {
   "property": "C80",
   "status": "proved",
   "theorems": [
    "Cackle.LibTree.C80_providers"
   ],
   "note": "If several packages provide the name, it is the one listed last."
  },
  {
   "property": "C81",
   "status": "partial",
   "theorems": [
    "Cackle.Summary.C81_human",
    "Cackle.Summary.C81_json_partial",
    "Cackle.Summary.C81_json_lost",
    "Cackle.Summary.C81_json_counts",
    "Cackle.Summary.C81_counts",
    "Cackle.Summary.C81_by_package",
    "Cackle.Summary.C81_impure",
    "Cackle.Summary.C81_format"
   ],
   "note": "Proved for text output. Refuted for JSON: the packages by permission are stored under the name of the impure proc macros and are replaced by them; what is stored as counts are the permissions."
  },
  {
   "property": "C82",
   "status": "partial",
   "theorems": [
    "Cackle.Dwarf.C82_partial",
    "Cackle.Dwarf.C82_sound_partial",
    "Cackle.Dwarf.C82_fails",
    "Cackle.Dwarf.C82_specification"
   ],
   "note": "Proved in both directions for code with a low end in self-contained units whose functions are not defined apart from their declarations. Refuted otherwise: inlined code in several ranges is not reported, nor is what is inlined into a function that is described by DW_AT_specification."
  },
  {
   "property": "C83",
   "status": "partial",
   "theorems": [
    "Cackle.Dwarf.C83_own_start",
    "Cackle.Dwarf.C83_fails"
   ],
   "note": "Refuted: what goes with a report is always a low end of the inlined code itself, since the scanner is made anew for each entry. Which value it is, is proved."
  },
  {
   "property": "C84",
   "status": "partial",
   "theorems": [
    "Cackle.Dwarf.C84_recorded_partial",
    "Cackle.Dwarf.C84_place",
    "Cackle.Dwarf.C84_complete",
    "Cackle.Dwarf.C84_unknown_file",
    "Cackle.Dwarf.C84_enumeration"
   ],
   "note": "Refuted: the namespace of functions and variables in enumeration and union types is lost (C84_enumeration, as in C44). Proved: something is recorded for each declared symbol, place and own name are always right, and the namespace is right elsewhere. If there are several declarations of a symbol, it is the last one that is recorded."
  },
  {
   "property": "C85",
   "status": "partial",
   "theorems": [
    "Cackle.Ui.C85_panics_partial",
    "Cackle.Ui.C85_arrow_key_panics"
   ],
   "note": "Refuted: an arrow key panics when the list in which it would move is empty, for example after the last problem was solved and the build goes on. Proved that nothing else panics. Drawing is not modelled."
  },
  {
   "property": "C86",
   "status": "partial",
   "theorems": [
    "Cackle.Ui.C86_file_changes_partial",
    "Cackle.Ui.C86_auto_accept_creates_file"
   ],
   "note": "Proved what the new text is in each case. Refuted: auto-accept writes the file even if there is nothing to accept, which creates an empty file if there was none. The edits are parameters here (C64, C70 to C73 are about them)."
  },
  {
   "property": "C87",
   "status": "partial",
   "theorems": [
    "Cackle.Ui.C87_after_quit_partial",
    "Cackle.Ui.C87_accepts_after_quit"
   ],
   "note": "Refuted: with auto-accept on, problems reported after quitting are still accepted. Proved if auto-accept was never confirmed."
  },
  {
   "property": "C88",
   "status": "partial",
   "theorems": [
    "Cackle.Ui.C88_comment_partial",
    "Cackle.Ui.C88_comment_is_kept",
    "Cackle.Ui.C88_comment_on_wrong_edit"
   ],
   "note": "Refuted: a comment stays when the user goes back, and is attached to the next edit that is accepted, even for another problem. Proved when the comment changes."
  },
  {
   "property": "C89",
   "status": "proved",
   "theorems": [
    "Cackle.Ui.C89_accept"
   ],
   "note": "The assumption (Env.Sane) that no edit is followed by the same problem holds for all edits of the code."
  },
  {
   "property": "C90",
   "status": "partial",
   "theorems": [
    "Cackle.Ui.C90_selected_partial",
    "Cackle.Ui.C90_selection_lost"
   ],
   "note": "Refuted with auto-accept: it removes problems without adjusting the index. Proved if auto-accept was never confirmed."
  },
  {
   "property": "C91",
   "status": "partial",
   "theorems": [
    "Cackle.Ui.C91_selection_partial",
    "Cackle.Ui.C91_selection_jumps"
   ],
   "note": "Refuted with auto-accept: solving an earlier problem moves the selection to another one. Proved if auto-accept was never confirmed."
  },
  {
   "property": "C92",
   "status": "partial",
   "theorems": [
    "Cackle.Ui.C92_quit_partial",
    "Cackle.Ui.C92_quit_on_error",
    "Cackle.Ui.C92_error_key"
   ],
   "note": "Proved if no error is shown. Refuted otherwise: q then aborts the store, but neither cargo is told to stop nor is the user interface left."
  },
  {
   "property": "C93",
   "status": "partial",
   "theorems": [
    "Cackle.Ui.C93_screen_partial",
    "Cackle.Ui.C93_stale_screen"
   ],
   "note": "Refuted: a reload of the config by another thread changes the list of edits without the screen being drawn. Proved if nobody else did anything since."
  },
  {
   "property": "C94",
   "status": "proved",
   "theorems": [
    "Cackle.Ui.C94_only_q_quits"
   ],
   "note": ""
  },
  {
   "property": "C95",
   "status": "partial",
   "theorems": [
    "Cackle.Basic.C95_end_of_input_partial",
    "Cackle.Basic.C95_end_of_input_hangs"
   ],
   "note": "Refuted: the question is repeated forever, and those who wait never get an answer. Proved that nothing is approved and the config file is left alone."
  },
  {
   "property": "C96",
   "status": "partial",
   "theorems": [
    "Cackle.Basic.C96_stops_partial",
    "Cackle.Basic.C96_gone_is_silent",
    "Cackle.Basic.C96_write_error_ends_thread"
   ],
   "note": "Refuted: a fix that cannot be written ends the thread, and then nobody gets an answer any more. Proved exactly when the thread ends."
  },
  {
   "property": "C97",
   "status": "proved",
   "theorems": [
    "Cackle.Basic.C97_number_applies_fix",
    "Cackle.Basic.C97_diff_changes_nothing",
    "Cackle.Basic.C97_only_numbers"
   ],
   "note": "White space and lower case are modelled for ASCII. Assumes that there are fewer than 2^64 fixes."
  },
  {
   "property": "C98",
   "status": "proved",
   "theorems": [
    "Cackle.Basic.C98_solved_only_by_user",
    "Cackle.Basic.C98_file_only_by_user",
    "Cackle.Basic.C98_change_noticed"
   ],
   "note": "Each write of the file is assumed to change its modification time."
  },
  {
   "property": "C99",
   "status": "partial",
   "theorems": [
    "Cackle.Basic.C99_first_answer_partial",
    "Cackle.Basic.C99_toggles",
    "Cackle.Basic.C99_retyping_switches_off"
   ],
   "note": "Refuted: names switch APIs on and off, so an API that was typed in a rejected answer and again in the accepted one is not restricted. Proved for the first answer, and in general that an API is restricted if it was typed an odd number of times."
  }
 ]
}