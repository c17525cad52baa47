import Verif.Props.All

/-!
# Axioms of the theorems named in MANIFEST.json

Expected: at most `propext`, `Classical.choice` and `Quot.sound`.
-/

#print axioms Cackle.ApiMap.C01_classification
#print axioms Cackle.ApiMap.C01_split_join
#print axioms Cackle.ApiMap.C01_split_components
#print axioms Cackle.ApiMap.C02_order_independent
#print axioms Cackle.Perm.C03_inheritance
#print axioms Cackle.Perm.C03_no_leak_between_packages
#print axioms Cackle.Perm.C04_sandbox_partial
#print axioms Cackle.Perm.C04_pass_env_not_inherited
#print axioms Cackle.Perm.C04_pass_env_actual_partial
#print axioms Cackle.Perm.C05_update_to_2
#print axioms Cackle.Perm.C05_update_to_3_changes_behaviour
#print axioms Cackle.Perm.C05_update_to_3_partial
#print axioms Cackle.Editor.C05_update_document_to_2
#print axioms Cackle.Editor.C05_update_document_to_3_changes_behaviour
#print axioms Cackle.Editor.C05_update_document_to_3_partial
#print axioms Cackle.Perm.C05_rustc_sandbox
#print axioms Cackle.Checker.C06_api_use_reported
#print axioms Cackle.Checker.C07_exact_partial
#print axioms Cackle.Checker.C07_same_config_partial
#print axioms Cackle.Checker.C07_removed_permission_still_reported
#print axioms Cackle.Checker.C08_linked_analysed_partial
#print axioms Cackle.Checker.C08_binary_not_analysed
#print axioms Cackle.Checker.C09_not_reported
#print axioms Cackle.Checker.C09_build_script_partial
#print axioms Cackle.Store.C10_waiters
#print axioms Cackle.Basic.C100_answering_finishes
#print axioms Cackle.Basic.C100_reports_are_seen
#print axioms Cackle.Link.C101_objects_are_scanned_partial
#print axioms Cackle.Link.C101_nothing_else_is_scanned
#print axioms Cackle.Link.C101_target_dir
#print axioms Cackle.Link.C101_unresolved_target_scans_nothing
#print axioms Cackle.Link.C101_fails
#print axioms Cackle.Link.C101_response_file
#print axioms Cackle.Link.C101_dotdot
#print axioms Cackle.Link.C102_runs_what_was_analysed_partial
#print axioms Cackle.Link.C102_otherwise_nothing_is_changed
#print axioms Cackle.Link.C102_fails
#print axioms Cackle.Link.C102_other_program
#print axioms Cackle.Link.C103_originals_are_kept_apart
#print axioms Cackle.Link.C103_linking_keeps_other_programs
#print axioms Cackle.Link.C104_roles
#print axioms Cackle.Link.C104_linker
#print axioms Cackle.Cargo.C105_options_partial
#print axioms Cackle.Cargo.C105_nothing_else
#print axioms Cackle.Cargo.C105_double_dash
#print axioms Cackle.Cargo.C106_nothing_is_reused_partial
#print axioms Cackle.Cargo.C106_target_is_reused
#print axioms Cackle.Cargo.C106_config_target_is_reused
#print axioms Cackle.Cargo.C106_changed_profile_is_reused
#print axioms Cackle.Cargo.C107_settings_partial
#print axioms Cackle.Cargo.C107_split_debuginfo
#print axioms Cackle.Cargo.C107_package_settings
#print axioms Cackle.Cargo.C108_environment
#print axioms Cackle.Server.C109_success_partial
#print axioms Cackle.Server.C109_checked
#print axioms Cackle.Server.C109_every_binary_analysed
#print axioms Cackle.Server.C109_unanswered_request
#print axioms Cackle.Store.C11_ids_stable
#print axioms Cackle.Store.C11_one_entry_per_problem
#print axioms Cackle.Store.C11_add_visible
#print axioms Cackle.Server.C110_abort_partial
#print axioms Cackle.Server.C110_refusal_aborts
#print axioms Cackle.Server.C110_refused_partial
#print axioms Cackle.Server.C110_blocked_by_silence
#print axioms Cackle.Server.C111_ended_partial
#print axioms Cackle.Server.C111_cargo_left_running
#print axioms Cackle.Server.C112_own_answer
#print axioms Cackle.Server.C112_answer_final
#print axioms Cackle.Server.C112_answers
#print axioms Cackle.Server.C113_error_fails_partial
#print axioms Cackle.Server.C113_error_in_time
#print axioms Cackle.Server.C113_error_genuine
#print axioms Cackle.Server.C113_error_lost
#print axioms Cackle.Server.C114_ends_partial
#print axioms Cackle.Server.C114_blocked_by_silence
#print axioms Cackle.CrateIndex.C115_proc_macros_partial
#print axioms Cackle.CrateIndex.C115_same_version_unreported
#print axioms Cackle.CrateIndex.C116_permissions_partial
#print axioms Cackle.CrateIndex.C116_bench_without_sandbox
#print axioms Cackle.CrateIndex.C117_owner
#print axioms Cackle.CrateIndex.C118_newest
#print axioms Cackle.Messages.C119_arrives
#print axioms Cackle.Messages.C119_refused
#print axioms Cackle.Messages.C119_truncated
#print axioms Cackle.Messages.C119_distinct
#print axioms Cackle.Store.C12_replace_by_same_panics
#print axioms Cackle.Store.C12_no_panic_partial
#print axioms Cackle.Messages.C120_in_force
#print axioms Cackle.Messages.C120_decisions
#print axioms Cackle.Messages.C120_last
#print axioms Cackle.Messages.C121_answer
#print axioms Cackle.Messages.C121_closed
#print axioms Cackle.Security.C122_only_permitted_partial
#print axioms Cackle.Security.C122_unchanged_partial
#print axioms Cackle.Security.C122_success_partial
#print axioms Cackle.Security.C122_defined_later
#print axioms Cackle.Report.C123_all_uses_partial
#print axioms Cackle.Report.C123_forged_use
#print axioms Cackle.Report.C124_permission_partial
#print axioms Cackle.Report.C124_scope_not_reported
#print axioms Cackle.Report.C124_off_tree_look_alike
#print axioms Cackle.Ui.C125_highlighted_partial
#print axioms Cackle.Ui.C125_another_problem
#print axioms Cackle.Ui.C125_panes
#print axioms Cackle.Ui.C126_lines
#print axioms Cackle.Ui.C126_visible_partial
#print axioms Cackle.Ui.C126_token
#print axioms Cackle.Ui.C126_pushed_out
#print axioms Cackle.Ui.C126_std_source
#print axioms Cackle.Ui.C127_shown_partial
#print axioms Cackle.Ui.C127_cut_off
#print axioms Cackle.Fixes.C128_settled_partial
#print axioms Cackle.Fixes.C128_accept_partial
#print axioms Cackle.Fixes.C128_extern
#print axioms Cackle.Fixes.C128_test
#print axioms Cackle.Fixes.C128_execution_offers
#print axioms Cackle.Fixes.C129_grant_partial
#print axioms Cackle.Fixes.C129_versions
#print axioms Cackle.Fixes.C129_titles_differ
#print axioms Cackle.Fixes.C129_title_effect
#print axioms Cackle.Fixes.C129_remove_title
#print axioms Cackle.NullUi.C13_decision
#print axioms Cackle.Fixes.C130_setup
#print axioms Cackle.Fixes.C130_recommended
#print axioms Cackle.Fixes.C130_questions
#print axioms Cackle.Output.C131_shown_partial
#print axioms Cackle.Output.C131_prefix
#print axioms Cackle.Output.C131_lost
#print axioms Cackle.Output.C131_lost_basic
#print axioms Cackle.Output.C132_basic_partial
#print axioms Cackle.Output.C132_fits_partial
#print axioms Cackle.Output.C132_finite
#print axioms Cackle.Output.C132_only_ui
#print axioms Cackle.Output.C132_hangs
#print axioms Cackle.Output.C132_hang_possible
#print axioms Cackle.Output.C132_refuted
#print axioms Cackle.Shown.C133_paste_partial
#print axioms Cackle.Shown.C133_bwrap_partial
#print axioms Cackle.Shown.C133_own
#print axioms Cackle.Shown.C133_distinct
#print axioms Cackle.Shown.C133_runs_command
#print axioms Cackle.Shown.C133_refuted
#print axioms Cackle.Std.C134_analysed_partial
#print axioms Cackle.Std.C134_nothing
#print axioms Cackle.Std.C134_distribution
#print axioms Cackle.Std.C134_cargo_home
#print axioms Cackle.Std.C134_rust_dir
#print axioms Cackle.Std.C134_failed_rustc
#print axioms Cackle.Std.C134_failed_rustc_files
#print axioms Cackle.Std.C134_refuted
#print axioms Cackle.Std.C134_refuted_project
#print axioms Cackle.Ui.C135_problem
#print axioms Cackle.Ui.C135_place
#print axioms Cackle.Ui.C135_frame
#print axioms Cackle.Ui.C135_edit
#print axioms Cackle.Ui.C136_history
#print axioms Cackle.Ui.C136_recall
#print axioms Cackle.Ui.C136_latest
#print axioms Cackle.LegacySymbols.C137_trait_partial
#print axioms Cackle.LegacySymbols.C137_generic_partial
#print axioms Cackle.LegacySymbols.C137_trait_args
#print axioms Cackle.LegacySymbols.C137_generic_method
#print axioms Cackle.RustcErrors.C138_places
#print axioms Cackle.RustcErrors.C138_unsafe
#print axioms Cackle.RustcErrors.C138_extern
#print axioms Cackle.RustcErrors.C138_other
#print axioms Cackle.RustcErrors.C139_not_asked_partial
#print axioms Cackle.RustcErrors.C139_compiles
#print axioms Cackle.RustcErrors.C139_again
#print axioms Cackle.RustcErrors.C139_own_lint
#print axioms Cackle.RustcErrors.C139_endless
#print axioms Cackle.Main.C14_finishes_partial
#print axioms Cackle.Main.C14_finishes_real_report_partial
#print axioms Cackle.Main.C14_warning_livelock
#print axioms Cackle.Graph.C140_reported_partial
#print axioms Cackle.Graph.C140_shim
#print axioms Cackle.Graph.C140_recognised
#print axioms Cackle.Graph.C140_other_object
#print axioms Cackle.ConfigFile.C141_partial
#print axioms Cackle.ConfigFile.C141_misspelt
#print axioms Cackle.ConfigFile.C141_documented_refused
#print axioms Cackle.ConfigFile.C141_documented
#print axioms Cackle.ConfigFile.C141_unused_setting
#print axioms Cackle.ConfigFile.C142_partial
#print axioms Cackle.ConfigFile.C142_member
#print axioms Cackle.ConfigFile.C142_refuted
#print axioms Cackle.Graph.C143_partial
#print axioms Cackle.Graph.C143_unlinked
#print axioms Cackle.Graph.C143_tombstone
#print axioms Cackle.Graph.C143_no_fallback
#print axioms Cackle.Checker.C144_partial
#print axioms Cackle.Checker.C144_at_the_same_time
#print axioms Cackle.Checker.C144_several_files
#print axioms Cackle.Checker.C144_refuted
#print axioms Cackle.Read.C145_partial
#print axioms Cackle.Read.C145_parts
#print axioms Cackle.Read.C145_entry
#print axioms Cackle.Read.C145_debug_info
#print axioms Cackle.Read.C145_missing
#print axioms Cackle.Read.C145_refuted
#print axioms Cackle.Report.C146_partial
#print axioms Cackle.Report.C146_off_tree
#print axioms Cackle.Report.C146_refuted
#print axioms Cackle.Report.C146_unsafe
#print axioms Cackle.Report.C146_unused
#print axioms Cackle.Report.C147_partial
#print axioms Cackle.Report.C147_headings
#print axioms Cackle.Report.C147_same_function
#print axioms Cackle.Report.C147_spelling
#print axioms Cackle.Report.C147_refuted
#print axioms Cackle.Ui.C148_keys_partial
#print axioms Cackle.Ui.C148_others_partial
#print axioms Cackle.Ui.C148_backtrace_keys
#print axioms Cackle.Ui.C149_details
#print axioms Cackle.Ui.C149_notes
#print axioms Cackle.Ui.C149_off_tree
#print axioms Cackle.Ui.C149_places
#print axioms Cackle.Main.C15_success
#print axioms Cackle.Main.C15_not_built
#print axioms Cackle.Main.C15_succeeds
#print axioms Cackle.Ui.C150_refuted
#print axioms Cackle.Ui.C150_api_refuted
#print axioms Cackle.Ui.C150_rows_partial
#print axioms Cackle.Ui.C150_row_says
#print axioms Cackle.Ui.C151_refuted
#print axioms Cackle.Ui.C151_package
#print axioms Cackle.Ui.C151_text_partial
#print axioms Cackle.Ui.C151_shown
#print axioms Cackle.ShowDiff.C152_refuted
#print axioms Cackle.ShowDiff.C152_shown_partial
#print axioms Cackle.ShowDiff.C152_changes
#print axioms Cackle.NewVersion.C153_refuted
#print axioms Cackle.NewVersion.C153_said
#print axioms Cackle.NewVersion.C153_reaches_newest_partial
#print axioms Cackle.ShowDiff.C154_refuted
#print axioms Cackle.ShowDiff.C154_initial_partial
#print axioms Cackle.ShowDiff.C154_verify
#print axioms Cackle.Options.C155_asks
#print axioms Cackle.Options.C155_auto_accept_ignored
#print axioms Cackle.Options.C155_interactive_ignores
#print axioms Cackle.Options.C155_fail_on_warnings_ignored
#print axioms Cackle.Options.C155_options_partial
#print axioms Cackle.Options.C155_quiet_warns
#print axioms Cackle.Options.C155_quiet_partial
#print axioms Cackle.Options.C156_problems
#print axioms Cackle.Options.C156_failure_is_explained
#print axioms Cackle.Ui.C157_message_partial
#print axioms Cackle.Ui.C157_auto_accept
#print axioms Cackle.Ui.C157_refuted
#print axioms Cackle.Ui.C157_help
#print axioms Cackle.Ui.C157_help_cut
#print axioms Cackle.Ui.C157_comment
#print axioms Cackle.Ui.C157_centred
#print axioms Cackle.Checker.C158_inherited
#print axioms Cackle.Checker.C158_told
#print axioms Cackle.Checker.C158_effect_partial
#print axioms Cackle.CrateIndex.C159_benchmarks
#print axioms Cackle.CrateIndex.C159_no_effect_partial
#print axioms Cackle.Checker.C159_told
#print axioms Cackle.LibTree.C16_partial
#print axioms Cackle.LibTree.C16_same_version
#print axioms Cackle.Checker.C160_moved_permission
#print axioms Cackle.Checker.C160_removable_partial
#print axioms Cackle.Graph.C161_not_normal_partial
#print axioms Cackle.Graph.C161_itself_partial
#print axioms Cackle.Graph.C161_dev_dependency
#print axioms Cackle.Graph.C161_own_code
#print axioms Cackle.Ui.C162_reason_partial
#print axioms Cackle.Ui.C162_settled_unsaved
#print axioms Cackle.Ui.C163_life
#print axioms Cackle.Sandboxing.C164_binary_partial
#print axioms Cackle.Sandboxing.C164_config_partial
#print axioms Cackle.Sandboxing.C164_target_writable
#print axioms Cackle.Sandboxing.C164_config_in_target
#print axioms Cackle.Sandboxing.C165_variables_partial
#print axioms Cackle.Sandboxing.C165_socket_partial
#print axioms Cackle.Sandboxing.C165_socket_visible
#print axioms Cackle.Rustc.C166_compiled_partial
#print axioms Cackle.Rustc.C166_shebang_hides_code
#print axioms Cackle.Rustc.C167_approved_partial
#print axioms Cackle.Rustc.C167_refused_partial
#print axioms Cackle.Rustc.C167_own_failure
#print axioms Cackle.Rustc.C167_accepted_partial
#print axioms Cackle.Rustc.C167_unreadable_partial
#print axioms Cackle.Rustc.C167_backslash
#print axioms Cackle.Checker.C168_settled_partial
#print axioms Cackle.Checker.C168_linked_twice
#print axioms Cackle.Fixes.C169_restricted_partial
#print axioms Cackle.Fixes.C169_included_partial
#print axioms Cackle.Fixes.C169_hyphen
#print axioms Cackle.Fixes.C169_included_hyphen
#print axioms Cackle.BuildScript.C17_instructions_reported
#print axioms Cackle.Rustc.C170_read_partial
#print axioms Cackle.Rustc.C170_newest_partial
#print axioms Cackle.Rustc.C170_guarded
#print axioms Cackle.Rustc.C170_raw_lifetime
#print axioms Cackle.Rustc.C170_raw_c_string
#print axioms Cackle.Toolchain.C171_toolchain_partial
#print axioms Cackle.Toolchain.C171_compiler
#print axioms Cackle.Toolchain.C171_no_rustup
#print axioms Cackle.Toolchain.C171_path
#print axioms Cackle.Rustc.C172_scanned_partial
#print axioms Cackle.Rustc.C172_not_found
#print axioms Cackle.Rustc.C172_second_emit
#print axioms Cackle.Settings.C173_settings_partial
#print axioms Cackle.Settings.C173_edit
#print axioms Cackle.Settings.C173_stale
#print axioms Cackle.Settings.C173_clean_stale
#print axioms Cackle.Comments.C174_add_partial
#print axioms Cackle.Comments.C174_remove_partial
#print axioms Cackle.Comments.C174_set_partial
#print axioms Cackle.Comments.C174_values
#print axioms Cackle.Comments.C174_keys
#print axioms Cackle.Comments.C174_supported
#print axioms Cackle.Comments.C174_moved
#print axioms Cackle.Comments.C174_removed
#print axioms Cackle.Comments.C174_lost
#print axioms Cackle.Comments.C174_Claim_false
#print axioms Cackle.FileNames.C175_canonical
#print axioms Cackle.FileNames.C175_relative_partial
#print axioms Cackle.FileNames.C175_nobody
#print axioms Cackle.FileNames.C175_through_sysroot
#print axioms Cackle.FileNames.C175_through_package
#print axioms Cackle.FileNames.C175_nested
#print axioms Cackle.FileNames.C175_refuted
#print axioms Cackle.Links.C176_partial
#print axioms Cackle.Links.C176_in_place
#print axioms Cackle.Links.C176_link
#print axioms Cackle.Links.C176_hard_link
#print axioms Cackle.Links.C176_mode
#print axioms Cackle.Links.C176_lost
#print axioms Cackle.Links.C176_through
#print axioms Cackle.Links.C176_refuted
#print axioms Cackle.BuildDir.C177_partial
#print axioms Cackle.BuildDir.C177_cli
#print axioms Cackle.BuildDir.C177_older_partial
#print axioms Cackle.BuildDir.C177_older_config
#print axioms Cackle.BuildDir.C177_older_member
#print axioms Cackle.BuildDir.C177_nothing_scanned
#print axioms Cackle.BuildDir.C177_nothing_found
#print axioms Cackle.BuildDir.C177_flags
#print axioms Cackle.BuildDir.C177_refuted
#print axioms Cackle.Products.C178_partial
#print axioms Cackle.Products.C178_library
#print axioms Cackle.Products.C178_refuted
#print axioms Cackle.Compilers.C179_first
#print axioms Cackle.Compilers.C179_partial
#print axioms Cackle.Compilers.C179_other_name
#print axioms Cackle.Compilers.C179_examples
#print axioms Cackle.Compilers.C179_refuted
#print axioms Cackle.BuildScript.C18_patterns
#print axioms Cackle.BuildScript.C18_cuts
#print axioms Cackle.Checker.C180_partial
#print axioms Cackle.Checker.C180_forged
#print axioms Cackle.Checker.C180_refuted
#print axioms Cackle.Sandboxing.C180_reachable
#print axioms Cackle.Invalid.C181_all
#print axioms Cackle.Invalid.C181_partial
#print axioms Cackle.Invalid.C181_run_together
#print axioms Cackle.Invalid.C181_dep
#print axioms Cackle.Invalid.C181_refuted
#print axioms Cackle.Graph.C182_partial
#print axioms Cackle.Graph.C182_lib
#print axioms Cackle.Graph.C182_generic
#print axioms Cackle.Graph.C182_refuted
#print axioms Cackle.Ui.C183_partial
#print axioms Cackle.Ui.C183_unreadable
#print axioms Cackle.Ui.C183_refuted
#print axioms Cackle.NullUi.C183_auto_accept_partial
#print axioms Cackle.NullUi.C183_auto_accept_unreadable
#print axioms Cackle.Basic.C184_partial
#print axioms Cackle.Basic.C184_overwritten
#print axioms Cackle.Basic.C184_refuted
#print axioms Cackle.LibTree.C185_partial
#print axioms Cackle.LibTree.C185_failed_command
#print axioms Cackle.LibTree.C185_skipped_line
#print axioms Cackle.LibTree.C185_refuted
#print axioms Cackle.Ui.C186_partial
#print axioms Cackle.Ui.C186_places_have_edits
#print axioms Cackle.Ui.C186_empty_list
#print axioms Cackle.Ui.C186_refuted
#print axioms Cackle.Editor.C19_exact_grant
#print axioms Cackle.Editor.C19_problem_gone
#print axioms Cackle.Editor.C19_granted_once
#print axioms Cackle.Editor.C20_add_partial
#print axioms Cackle.Editor.C20_duplicates
#print axioms Cackle.Scan.C21_unsafe_partial
#print axioms Cackle.Scan.C21_last_token_missed
#print axioms Cackle.Scan.C22_extern_partial
#print axioms Cackle.Scan.C22_last_token_missed
#print axioms Cackle.Scan.C22_unsafe_extern_crate_missed
#print axioms Cackle.Scan.C22_together_partial
#print axioms Cackle.Rustc.C23_compiled_partial
#print axioms Cackle.Rustc.C23_backslash_not_scanned
#print axioms Cackle.Deps.C24_paths_partial
#print axioms Cackle.Deps.C24_backslash_lost
#print axioms Cackle.Deps.C24_no_dep_info
#print axioms Cackle.Wire.C25_framing
#print axioms Cackle.Wire.C25_round_trip
#print axioms Cackle.Fs.C26_atomic_partial
#print axioms Cackle.Fs.C26_tmp_extension
#print axioms Cackle.Names.C27_legacy_path_partial
#print axioms Cackle.Names.C27_underscore
#print axioms Cackle.Names.C27_mut
#print axioms Cackle.LegacySymbols.C27_unicode
#print axioms Cackle.Names.C28_symbols_partial
#print axioms Cackle.Names.C28_debug_names
#print axioms Cackle.Names.C28_not_terminating
#print axioms Cackle.Names.C29_ascii_partial
#print axioms Cackle.Names.C29_panics
#print axioms Cackle.Names.C29_panics_v0
#print axioms Cackle.Graph.C30_targets
#print axioms Cackle.Graph.C30_panics
#print axioms Cackle.Graph.C31_shortest
#print axioms Cackle.Graph.C31_pairs
#print axioms Cackle.Graph.C32_cache_partial
#print axioms Cackle.Graph.C32_other_name
#print axioms Cackle.Checker.C33_owner
#print axioms Cackle.Identity.C34_identity_partial
#print axioms Cackle.Identity.C34_build_script_name
#print axioms Cackle.Sandboxing.C35_recorded
#print axioms Cackle.Sandboxing.C35_reaches
#print axioms Cackle.Sandboxing.C36_isolation
#print axioms Cackle.Sandboxing.C36_isolation_rustc
#print axioms Cackle.BinProxy.C37_sandboxed_partial
#print axioms Cackle.BinProxy.C37_no_args_partial
#print axioms Cackle.BinProxy.C37_arguments_doubled
#print axioms Cackle.BinProxy.C37_not_checked
#print axioms Cackle.Perm.C38_validation
#print axioms Cackle.Config.C39_import_std
#print axioms Cackle.Config.C39_import_pkg
#print axioms Cackle.Config.C39_import_missing_package
#print axioms Cackle.Config.C39_missing_export_ignored
#print axioms Cackle.Perm.C40_global_paths_stay_relative
#print axioms Cackle.Perm.C40_from_paths_stay_relative
#print axioms Cackle.Perm.C40_paths_partial
#print axioms Cackle.Diff.C41_trim
#print axioms Cackle.Diff.C42_headers_partial
#print axioms Cackle.Diff.C42_changes
#print axioms Cackle.Diff.C42_next_section
#print axioms Cackle.Diff.C42_trimmed
#print axioms Cackle.Backtrace.C43_backtrace_partial
#print axioms Cackle.Backtrace.C43_overlap
#print axioms Cackle.Backtrace.C43_not_longest
#print axioms Cackle.Ui.C43_frames
#print axioms Cackle.Ui.C43_rows
#print axioms Cackle.Dwarf.C44_functions_partial
#print axioms Cackle.Dwarf.C44_references_partial
#print axioms Cackle.Dwarf.C44_any_unit
#print axioms Cackle.Dwarf.C44_fails
#print axioms Cackle.Dwarf.C44_enumeration
#print axioms Cackle.Wire.C45_replay_partial
#print axioms Cackle.Wire.C45_order_lost
#print axioms Cackle.Editor.C46_build_script_partial
#print axioms Cackle.Editor.C46_test_not_affected
#print axioms Cackle.Graph.C47_exports_partial
#print axioms Cackle.Graph.C47_sound
#print axioms Cackle.Graph.C47_paths
#print axioms Cackle.Graph.C47_macro
#print axioms Cackle.Graph.C47_order
#print axioms Cackle.Prefix.C48_exact
#print axioms Cackle.Prefix.C48_prefixes_partial
#print axioms Cackle.Prefix.C48_duplicates
#print axioms Cackle.Summary.C49_lists
#print axioms Cackle.Summary.C49_by_permission
#print axioms Cackle.Summary.C49_counts_partial
#print axioms Cackle.Summary.C49_tests_ignored
#print axioms Cackle.Summary.C49_api_name
#print axioms Cackle.Perm.C50_scope
#print axioms Cackle.Perm.C50_unconditional_grant
#print axioms Cackle.Main.C51_clean_started_partial
#print axioms Cackle.Main.C51_failed_clean_ignored
#print axioms Cackle.NullUi.C52_answered_partial
#print axioms Cackle.NullUi.C52_progress
#print axioms Cackle.NullUi.C52_waits_forever
#print axioms Cackle.Config.C53_process_partial
#print axioms Cackle.Config.C53_unix_process_missed
#print axioms Cackle.Config.C53_coverage
#print axioms Cackle.BuildScript.C54_reported_partial
#print axioms Cackle.BuildScript.C54_indented_not_reported
#print axioms Cackle.Lexer.C55_no_shebang_partial
#print axioms Cackle.Lexer.C55_shebang_hides_code
#print axioms Cackle.Rustc.C56_command_partial
#print axioms Cackle.Rustc.C56_joined_linker_lost
#print axioms Cackle.Identity.C57_kind_partial
#print axioms Cackle.Identity.C57_library_taken_for_build_script
#print axioms Cackle.Sandboxing.C58_home_hidden
#print axioms Cackle.Sandboxing.C59_writes_confined
#print axioms Cackle.Sandboxing.C59_writes_confined_rustc
#print axioms Cackle.Sandboxing.C60_writable_partial
#print axioms Cackle.Sandboxing.C60_run_hidden
#print axioms Cackle.Sandboxing.C60_workspace_read_only
#print axioms Cackle.Sandboxing.C61_file_hidden_partial
#print axioms Cackle.Sandboxing.C61_token_leaks
#print axioms Cackle.Sandboxing.C61_cargo_home_visible
#print axioms Cackle.Sandboxing.C62_old_spelling_partial
#print axioms Cackle.Sandboxing.C62_new_spelling_ignored
#print axioms Cackle.BinProxy.C63_success
#print axioms Cackle.Editor.C64_fix_works_partial
#print axioms Cackle.Editor.C64_extern_no_effect
#print axioms Cackle.Editor.C64_inline_table
#print axioms Cackle.Checker.C65_continue_means_checked
#print axioms Cackle.Checker.C65_repeats
#print axioms Cackle.NullUi.C66_auto_accept
#print axioms Cackle.NullUi.C67_continue_before_saved
#print axioms Cackle.NullUi.C67_early_error_partial
#print axioms Cackle.Rustc.C68_second_emit
#print axioms Cackle.Rustc.C68_joined_extra
#print axioms Cackle.Rustc.C68_dep_info_path_partial
#print axioms Cackle.Sandboxing.C69_binary
#print axioms Cackle.Sandboxing.C69_rustc
#print axioms Cackle.Sandboxing.C69_unusable_refused
#print axioms Cackle.Editor.C70_exact_edit
#print axioms Cackle.Editor.C70_inline_std
#print axioms Cackle.Editor.C71_possible_export_gone
#print axioms Cackle.Editor.C71_available_gone
#print axioms Cackle.Editor.C72_remove_section
#print axioms Cackle.Editor.C72_remove_grants
#print axioms Cackle.Editor.C73_toggle
#print axioms Cackle.Editor.C73_toggle_effect
#print axioms Cackle.Names.C74_v0_path_partial
#print axioms Cackle.Names.C74_hash
#print axioms Cackle.Names.C75_own_path_partial
#print axioms Cackle.Names.C75_generic_args
#print axioms Cackle.Names.C75_closure
#print axioms Cackle.Names.C75_inherent_impl
#print axioms Cackle.Names.C75_inherent_impl_root
#print axioms Cackle.Names.C76_names_partial
#print axioms Cackle.Names.C76_namespace_partial
#print axioms Cackle.Names.C76_trait_args
#print axioms Cackle.Names.C76_nested
#print axioms Cackle.Names.C76_keywords
#print axioms Cackle.Names.C76_hash
#print axioms Cackle.Graph.C77_reported_partial
#print axioms Cackle.Graph.C77_off_tree
#print axioms Cackle.Graph.C77_other_name
#print axioms Cackle.Graph.C78_genuine_partial
#print axioms Cackle.Graph.C78_other_name
#print axioms Cackle.Prefix.C79_exclude_partial
#print axioms Cackle.Prefix.C79_include_partial
#print axioms Cackle.Prefix.C79_include_new
#print axioms Cackle.Prefix.C79_exclude_inside
#print axioms Cackle.Prefix.C79_other_name
#print axioms Cackle.Prefix.C79_excluded
#print axioms Cackle.LibTree.C80_providers
#print axioms Cackle.Summary.C81_human
#print axioms Cackle.Summary.C81_json_partial
#print axioms Cackle.Summary.C81_json_lost
#print axioms Cackle.Summary.C81_json_counts
#print axioms Cackle.Summary.C81_counts
#print axioms Cackle.Summary.C81_by_package
#print axioms Cackle.Summary.C81_impure
#print axioms Cackle.Summary.C81_format
#print axioms Cackle.Dwarf.C82_partial
#print axioms Cackle.Dwarf.C82_sound_partial
#print axioms Cackle.Dwarf.C82_fails
#print axioms Cackle.Dwarf.C82_specification
#print axioms Cackle.Dwarf.C83_own_start
#print axioms Cackle.Dwarf.C83_fails
#print axioms Cackle.Dwarf.C84_recorded_partial
#print axioms Cackle.Dwarf.C84_place
#print axioms Cackle.Dwarf.C84_complete
#print axioms Cackle.Dwarf.C84_unknown_file
#print axioms Cackle.Dwarf.C84_enumeration
#print axioms Cackle.Ui.C85_panics_partial
#print axioms Cackle.Ui.C85_arrow_key_panics
#print axioms Cackle.Ui.C86_file_changes_partial
#print axioms Cackle.Ui.C86_auto_accept_creates_file
#print axioms Cackle.Ui.C87_after_quit_partial
#print axioms Cackle.Ui.C87_accepts_after_quit
#print axioms Cackle.Ui.C88_comment_partial
#print axioms Cackle.Ui.C88_comment_is_kept
#print axioms Cackle.Ui.C88_comment_on_wrong_edit
#print axioms Cackle.Ui.C89_accept
#print axioms Cackle.Ui.C90_selected_partial
#print axioms Cackle.Ui.C90_selection_lost
#print axioms Cackle.Ui.C91_selection_partial
#print axioms Cackle.Ui.C91_selection_jumps
#print axioms Cackle.Ui.C92_quit_partial
#print axioms Cackle.Ui.C92_quit_on_error
#print axioms Cackle.Ui.C92_error_key
#print axioms Cackle.Ui.C93_screen_partial
#print axioms Cackle.Ui.C93_stale_screen
#print axioms Cackle.Ui.C94_only_q_quits
#print axioms Cackle.Basic.C95_end_of_input_partial
#print axioms Cackle.Basic.C95_end_of_input_hangs
#print axioms Cackle.Basic.C96_stops_partial
#print axioms Cackle.Basic.C96_gone_is_silent
#print axioms Cackle.Basic.C96_write_error_ends_thread
#print axioms Cackle.Basic.C97_number_applies_fix
#print axioms Cackle.Basic.C97_diff_changes_nothing
#print axioms Cackle.Basic.C97_only_numbers
#print axioms Cackle.Basic.C98_solved_only_by_user
#print axioms Cackle.Basic.C98_file_only_by_user
#print axioms Cackle.Basic.C98_change_noticed
#print axioms Cackle.Basic.C99_first_answer_partial
#print axioms Cackle.Basic.C99_toggles
#print axioms Cackle.Basic.C99_retyping_switches_off
