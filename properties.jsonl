{"id": "C01", "title": "API classification is exactly include-prefix and not exclude-prefix", "statement": "After a configuration is loaded, the set of APIs reported for a name consists of exactly those configured APIs that have some `include` path which is a prefix of the name (compared component by component after splitting on `::`) and no `exclude` path which is such a prefix. In particular `std::fs` never matches `std::fsx`.", "quantifier": "every set of API definitions (any number of APIs, any include/exclude paths) and every name", "why_tests_cant": "There are unboundedly many API tables and names; overlapping and nested include/exclude paths of several APIs interact in one shared tree.", "anchors": ["src/checker/api_map.rs: ApiMap::get/create_entry/mut_tree/update_subtree", "src/checker.rs: Checker::update_config, apis_for_name_iterator", "src/names.rs: split_simple"]}
{"id": "C02", "title": "Loading API definitions never panics and does not depend on table order", "statement": "Loading any API definitions completes without hitting the internal `mut_tree called without calling create_entry` panic, gives the same classification for every iteration order of the API table and of the include/exclude lists, and a reload gives the classification of the new definitions only (nothing is left over from the previously loaded ones).", "quantifier": "every sequence of loaded configurations and every ordering of their API tables", "why_tests_cant": "Requires all permutations and all histories of reloads.", "anchors": ["src/checker.rs: Checker::update_config", "src/checker/api_map.rs: ApiMap::mut_tree, clear"]}
{"id": "C03", "title": "Permissions inherit exactly along the documented tree", "statement": "For every package known to the crate index, the APIs and build instructions permitted at a selector (pkg.N, pkg.N.from.build, pkg.N.build, pkg.N.from.test, pkg.N.test) are exactly those listed at that selector or at one of its ancestors in the documented inheritance tree, and likewise unsafe, extern and proc-macro permission. Nothing leaks from one package to another, or from a selector to its ancestor or sibling.", "quantifier": "every configuration file contents and crate index, every package, selector and API", "why_tests_cant": "All combinations of five selectors over unboundedly many packages and permission lists.", "anchors": ["src/config/permissions.rs: Permissions::from_config_with_inheritance, apply_inheritance, PackageConfig::inherit", "CONFIG.md: Package permissions"]}
{"id": "C04", "title": "The nearest sandbox setting wins and everything in [sandbox] is a default", "statement": "The sandbox kind and network setting in effect for a build script or test of an indexed package are those of the nearest selector on its inheritance chain that sets them, falling back to the global `[sandbox]`; the lists of extra arguments and writable directories are the union along the chain, and so is the list of environment variables to pass.", "quantifier": "every configuration and every indexed package's build and test selectors", "why_tests_cant": "Any of five levels can set or leave unset any of the fields.", "anchors": ["src/config/permissions.rs: apply_inheritance, SandboxConfig::inherit", "CONFIG.md: Sandbox"]}
{"id": "C05", "title": "Updating the config version while preserving behaviour preserves behaviour", "statement": "For each supported version step, the edit offered as `Update config to version N while preserving old behaviour` leaves a configuration under which every decision (rustc sandbox, permissions for unsafe, extern, APIs) is the same as before the edit.", "quantifier": "every configuration at every older version, every crate", "why_tests_cant": "All configurations; the existing unit test checks one toml per version.", "anchors": ["src/config/versions.rs: VERSIONS, Version::apply, apply_runtime_patches", "src/config/permissions.rs: extern_permitted_for_crate", "src/config.rs: parse_raw"]}
{"id": "C06", "title": "An API use is silent exactly when it is permitted, and otherwise every usage is reported once", "statement": "When usages of an API by a package are checked: if the API is allowed for the package in that scope, no problem results; otherwise each usage appears in exactly one reported problem (disallowed, or off-tree for the referenced non-dependency), except off-tree usages whose outer function is defined by the package that provides the referenced name. If the package's dependencies are unknown every usage is reported as disallowed.", "quantifier": "every checker state, crate index, package, API and list of usages", "why_tests_cant": "Unbounded usage lists, dependency graphs and location tables.", "anchors": ["src/checker.rs: Checker::api_used, is_to_name_from_outer_location"]}
{"id": "C07", "title": "Unused-permission warnings are exact with respect to the run's history", "statement": "At the end of a run an API permission is reported unused at a selector if and only if that selector itself lists it, and no usage of the API by that package was seen, since the permission was first granted, at that selector or at any selector inheriting from it.", "quantifier": "every history of configuration loads and API usages", "why_tests_cant": "Depends on the whole interleaving of config reloads and usages.", "anchors": ["src/checker.rs: update_config, api_used, mark_parent_allow_apis_used, check_unused"]}
{"id": "C08", "title": "Every linked binary is analysed before a run succeeds", "statement": "If a run ends successfully then for every linker invocation reported during the run, the binary it produced was scanned and, at its last check, showed no problems under the then-current configuration.", "quantifier": "every schedule of concurrent linker/rustc-completion requests, retries and user responses", "why_tests_cant": "Requests are handled by concurrent threads that block while the user fixes problems; the property quantifies over all interleavings.", "anchors": ["src/checker.rs: handle_request, get_link_info, check_object_paths", "src/main.rs: RequestHandler::handle_request, Cackle::run"]}
{"id": "C09", "title": "With explicit_build_scripts every unmentioned build script is reported", "statement": "If `explicit_build_scripts` is set, linking the build script of a package that has no `pkg.N.build` section in the configuration reports a problem; if it is unset none is reported for this reason.", "quantifier": "every configuration, crate index and package", "why_tests_cant": "All configurations and crate graphs.", "anchors": ["src/checker.rs: verify_build_script_permitted, update_config", "src/config/permissions.rs: from_config_with_inheritance", "src/crate_index.rs: add_permission_selectors"]}
{"id": "C10", "title": "A waiter is released exactly once, and only when its problems are settled", "statement": "A caller that reports a non-empty problem list receives at most one outcome. It receives Continue only when every problem it reported, and every problem that replaced one of them, has been resolved; it receives GiveUp only if the store was aborted; and once all its problems are resolved (or on abort) it has received an outcome.", "quantifier": "every sequence of add, resolve, replace and abort operations by any number of callers", "why_tests_cant": "History property over unboundedly many interleaved operations.", "anchors": ["src/problem_store.rs: ProblemStore::add/replace/resolve/abort, NotificationEntry::replace_problem, ProblemStoreRef::fix_problems"]}
{"id": "C11", "title": "Problem IDs are stable and problems are never lost", "statement": "A problem ID always denotes the same problem until it is resolved and is never reused; adding problems keeps one live entry per distinct problem (up to deduplication) and every reported API usage remains visible in the live entry until that entry is resolved.", "quantifier": "every history of store operations", "why_tests_cant": "History property.", "anchors": ["src/problem_store.rs: add_problem, replace, deduplicated_into_iter", "src/problem.rs: deduplication_key, merge"]}
{"id": "C12", "title": "Store operations on live problems never panic", "statement": "Starting from an empty store, adding problems, resolving or replacing a problem ID obtained from the store's iterator, and aborting never panic.", "quantifier": "every history of store operations using IDs currently listed by the store", "why_tests_cant": "History property; the panic depends on the combination of replaced and replacement problem.", "anchors": ["src/problem_store.rs: replace, add_problem (expect calls)"]}
{"id": "C13", "title": "Non-interactive mode fails if and only if some problem counts as an error", "statement": "With the non-interactive UI and no auto-accept: a batch of problems leads to abort (and a non-zero exit status) iff some live problem has error severity, or has warning severity while --fail-on-warnings is given and no subcommand is in use; otherwise all live problems are resolved and no live problem remains.", "quantifier": "every store contents and flag combination", "why_tests_cant": "Unbounded set of problems.", "anchors": ["src/ui/null_ui.rs: NullUi::run", "src/problem.rs: severity", "src/main.rs: run"]}
{"id": "C14", "title": "Handling a request finishes in non-interactive mode, with the right outcome", "statement": "With the non-interactive UI, handling any request terminates, and it ends with GiveUp if the check found an error and with Continue if it found nothing.", "quantifier": "every configuration and request", "why_tests_cant": "Non-termination cannot be established or excluded by tests.", "anchors": ["src/main.rs: RequestHandler::handle_request", "src/ui/null_ui.rs: NullUi::run", "src/checker.rs: possible_exported_api_problems"]}
{"id": "C15", "title": "Exit status success means nothing was given up", "statement": "The process reports success only if it was not aborted before or during the build, no waiting request was told to give up, cargo (or the replay) succeeded, and no linker invocation is left unchecked when a full run was performed.", "quantifier": "every outcome of the individual phases of a run", "why_tests_cant": "All combinations of phase outcomes and abort timing.", "anchors": ["src/main.rs: Cackle::run, run_and_report_errors", "src/proxy.rs: process_request", "src/outcome.rs"]}
{"id": "C16", "title": "Dependency sets computed from `cargo tree` are exact", "statement": "For every acyclic dependency graph, processing the depth-prefixed, de-duplicated `cargo tree` listing of it yields for every listed package exactly the set of library names of its transitive dependencies.", "quantifier": "every finite acyclic dependency graph and every list of roots", "why_tests_cant": "All DAG shapes; sharing makes later occurrences appear without children.", "anchors": ["src/crate_index/lib_tree.rs: process_line, pop_to_level, build"]}
{"id": "C17", "title": "Every build instruction that is not permitted is reported", "statement": "For build script output that is valid UTF-8, the reported disallowed instructions are exactly the output lines starting with `cargo:` that neither start with an always-permitted prefix nor match an allowed pattern (equal to it, or starting with the part before a trailing `*`), in order; output that is not UTF-8 is reported. No instruction outside the allowed patterns goes unreported.", "quantifier": "every byte string written by a build script and every allow list", "why_tests_cant": "Arbitrary program output.", "anchors": ["src/build_script_checker.rs: BuildScriptReport::build, check_directive, matches"]}
{"id": "C18", "title": "Every fix offered for a disallowed build instruction permits that instruction", "statement": "Each of the edits offered for a disallowed build instruction adds a pattern that matches the instruction, the patterns go from most to least specific, and computing them never panics.", "quantifier": "every instruction text", "why_tests_cant": "Arbitrary text, including non-ASCII.", "anchors": ["src/config_editor.rs: edits_for_build_instruction", "src/build_script_checker.rs: matches"]}
{"id": "C19", "title": "Granting an API changes exactly what was asked", "statement": "Applying an offered `Allow ... to use ... API` edit at a selector makes the API permitted at that selector and everything inheriting from it, and leaves every other effective permission of every package unchanged; in particular the problem that offered it no longer occurs.", "quantifier": "every configuration document, package, scope and API", "why_tests_cant": "All prior configurations, including unsorted or redundant lists and sub-selectors.", "anchors": ["src/config_editor.rs: AllowApiUsage, RemoveUnusedAllowApis, add_to_array", "src/config/permissions.rs"]}
{"id": "C20", "title": "Adding to a config list is idempotent, keeps all entries and keeps sorted lists sorted", "statement": "Adding values to a list in the config file makes each present, keeps all existing entries in their relative order, changes nothing when repeated, and keeps a sorted duplicate-free list sorted and duplicate-free. No duplicate is ever introduced.", "quantifier": "every list contents and values to add", "why_tests_cant": "Arbitrary lists.", "anchors": ["src/config_editor.rs: add_to_array"]}
{"id": "C21", "title": "The source scanner reports every use of unsafe", "statement": "Scanning a source file reports, with its line and column, every `unsafe` token that is not followed (ignoring whitespace and comments) by `extern`, and reports nothing else.", "quantifier": "every token sequence", "why_tests_cant": "Arbitrary source files.", "anchors": ["src/unsafe_checker.rs: scan_string, scan_path"]}
{"id": "C22", "title": "The source scanner reports every use of extern", "statement": "Scanning a source file reports, with its line and column, every `extern` token other than those followed by `crate`, `]` or `)`, and reports nothing else. Consequently every `unsafe` token of a crate that may use neither unsafe nor extern is reported by one of the two scans.", "quantifier": "every token sequence", "why_tests_cant": "Arbitrary source files.", "anchors": ["src/extern_checker.rs: scan_string", "src/unsafe_checker.rs: scan_string", "src/proxy/subprocess.rs: RustcRunner::run"]}
{"id": "C23", "title": "Compilation succeeds only without forbidden unsafe or extern code", "statement": "When the rustc wrapper reports a successful compilation to cargo, either the crate is permitted unsafe or no source file listed in its dep-info contains an unsafe use, and likewise for extern, under the configuration in force at the last attempt; and rustc was given -Funsafe-code iff unsafe was not permitted.", "quantifier": "every sequence of compile attempts, configurations and user responses", "why_tests_cant": "Loops until the user fixes the configuration; all histories.", "anchors": ["src/proxy/subprocess.rs: proxy_rustc, RustcRunner::run, get_command"]}
{"id": "C24", "title": "Dep-info paths are recovered exactly", "statement": "Parsing the dep-info file that rustc writes yields exactly the source paths of the crate.", "quantifier": "every list of source file names", "why_tests_cant": "Arbitrary file names, including spaces and backslashes.", "anchors": ["src/deps.rs: parse_deps, unescape_makefile_path"]}
{"id": "C25", "title": "RPC framing round-trips", "statement": "Whatever sequence of messages is written to a connection is read back in order, and a truncated stream yields an error rather than a wrong message.", "quantifier": "every sequence of messages and every truncation point", "why_tests_cant": "Arbitrary message lengths and cut points.", "anchors": ["src/proxy/rpc.rs: write_to_stream, read_from_stream"]}
{"id": "C26", "title": "Config and flattened-config writes are atomic", "statement": "If the process stops at any point while rewriting a config file, a reader at that path sees either the complete old contents or the complete new contents.", "quantifier": "every crash point and every concurrent reader schedule", "why_tests_cant": "Crash points.", "anchors": ["src/fs.rs: write_atomic", "src/checker.rs: load_config", "src/config_editor.rs: ConfigEditor::write"]}
{"id": "C27", "title": "Legacy-mangled paths are recovered exactly", "statement": "For every path of identifiers, the legacy-mangled symbol for that path (with any 16-digit hash) yields exactly one non-empty name, equal to the path without the hash.", "quantifier": "every list of identifiers and hash", "why_tests_cant": "Arbitrary identifier lengths and contents.", "anchors": ["src/demangle.rs: DemangleIterator", "src/names.rs: NamesIterator", "src/symbol.rs: Symbol::names"]}
{"id": "C28", "title": "Name extraction always terminates", "statement": "Iterating over the names of any symbol or debug name terminates.", "quantifier": "every symbol (arbitrary bytes) and debug name", "why_tests_cant": "Adversarial symbol names; termination.", "anchors": ["src/demangle.rs: DemangleIterator::next, NonMangledIterator::next", "src/names.rs: NamesIterator::next_name"]}
{"id": "C29", "title": "Name extraction never panics", "statement": "Iterating over the names of any symbol or debug name never panics (it may return an error).", "quantifier": "every symbol and debug name", "why_tests_cant": "Adversarial symbol names, including multi-byte characters.", "anchors": ["src/demangle.rs: legacy_next, v0 next, skip_v0_type", "src/names.rs"]}
{"id": "C30", "title": "References through anonymous sections are all followed", "statement": "The symbols attributed to a relocation are exactly those reachable from its target by following relocations through sections that have no symbol present in the linked binary; the search terminates on cyclic sections.", "quantifier": "every object file section/relocation graph", "why_tests_cant": "All graphs, including cycles.", "anchors": ["src/symbol_graph.rs: ObjectIndex::add_target_symbols, get_symbol_or_section"]}
{"id": "C31", "title": "Deduplicating usages never hides an API use", "statement": "After reducing usages to the shortest target per group, every (package, API) pair with at least one collected usage still has at least one usage, each reported usage is one of the collected ones, each group of usages with the same package, scope, API, origin and source location is represented by exactly one with a minimal target length, and no pair is invented.", "quantifier": "every multiset of collected usages and every iteration order of the hash maps", "why_tests_cant": "Arbitrary multisets and hash orders.", "anchors": ["src/symbol_graph.rs: emit_shortest_api_usages, SingleApiUsage::group_key"]}
{"id": "C32", "title": "Skipping symbols known to have no APIs does not change results", "statement": "The usages collected with the per-binary cache of symbols that matched no API are the same as without the cache.", "quantifier": "every sequence of references scanned in a binary", "why_tests_cant": "History of a cache over arbitrary reference sequences.", "anchors": ["src/symbol_graph.rs: BinInfo::names_and_apis_do"]}
{"id": "C33", "title": "The owner of a source path is the nearest enclosing package", "statement": "A source path recorded for specific packages is attributed to exactly the packages whose compilation listed it, once each; a path in the standard library or sysroot is attributed to no package; any other path is attributed to the package with the deepest directory containing it.", "quantifier": "every history of rustc completions, crate index and path", "why_tests_cant": "All directory layouts and histories.", "anchors": ["src/checker.rs: record_crate_paths, opt_pkg_ids_from_source_path, is_in_rust_std", "src/crate_index.rs: package_id_for_path"]}
{"id": "C34", "title": "Sub-processes agree with the main process on package identity", "statement": "The package identity computed in a sub-process from environment variables equals the identity in the main process's index, and the textual crate token passed to linker and binary wrappers decodes to the same crate selector.", "quantifier": "every set of packages (names, versions) and every package in it", "why_tests_cant": "Arbitrary name/version sets.", "anchors": ["src/crate_index.rs: PackageId::from_env, CrateSel::to_token/from_token, multiple-version environment"]}
{"id": "C35", "title": "Environment variables set by build scripts reach the sandboxed rustc", "statement": "The variable names made available to the rustc sandbox for a package are exactly the non-empty names in `cargo:rustc-env=NAME=...` lines printed by that package's last successful build script, and packages do not see each other's.", "quantifier": "every build script output and set of packages", "why_tests_cant": "Arbitrary output; file-name collisions between packages.", "anchors": ["src/sandbox.rs: write_env_vars, read_env_vars, env_vars_file", "src/build_script_checker.rs", "src/crate_index.rs: Display for PackageId"]}
{"id": "C36", "title": "Network is isolated unless explicitly allowed", "statement": "A Bubblewrap sandbox command shares the host network only if the effective configuration allows network (or passes the option explicitly as an extra argument), regardless of the values of environment variables, paths and other arguments; the sandboxed environment contains only variables that are cargo-provided, listed in pass_env or set by the tool.", "quantifier": "every sandbox configuration, environment and command line", "why_tests_cant": "Arbitrary environments and arguments.", "anchors": ["src/sandbox/bubblewrap.rs", "src/sandbox.rs: from_config, is_cargo_env"]}
{"id": "C37", "title": "Running a wrapped binary without a sandbox is transparent and still checked", "statement": "When no sandbox is configured, a wrapped build script or test is run with exactly the arguments it was given, and a build script's instructions are still checked against the allowed ones.", "quantifier": "every argument list, crate kind and output", "why_tests_cant": "Arbitrary argument lists.", "anchors": ["src/proxy/subprocess.rs: proxy_binary"]}
{"id": "C38", "title": "A configuration that passes validation is well-formed", "statement": "A configuration is accepted only if its version is supported, every API granted anywhere is defined, no selector grants an API twice and no selector is nested deeper than documented; and every such configuration is accepted.", "quantifier": "every configuration", "why_tests_cant": "Arbitrary nesting.", "anchors": ["src/config_validation.rs: validate", "src/config.rs: parse_file"]}
{"id": "C39", "title": "Importing API definitions is faithful", "statement": "Importing built-in APIs adds exactly the built-in paths to the named API and fails on unknown names; importing APIs from a package adds exactly the requested exported definitions under the package's namespace, never overwrites an existing definition silently, and requesting an API the package does not export is reported.", "quantifier": "every configuration, built-in table and exported definition set", "why_tests_cant": "Arbitrary tables.", "anchors": ["src/config.rs: merge_built_ins, load_imports, unused_imports"]}
{"id": "C40", "title": "Every relative sandbox path is resolved against the workspace root", "statement": "After a configuration file is loaded, all writable-directory paths in every sandbox section are absolute.", "quantifier": "every configuration", "why_tests_cant": "Arbitrary nesting of sections.", "anchors": ["src/config.rs: make_paths_absolute"]}
{"id": "C41", "title": "Trimming a displayed diff never hides a change", "statement": "Whatever the size limit, trimming a displayed diff keeps every added and removed line, in order, and only ever removes unchanged context lines.", "quantifier": "every diff and size limit", "why_tests_cant": "Arbitrary diffs.", "anchors": ["src/ui/full_term/problems_ui/diff.rs: remove_excess_context"]}
{"id": "C42", "title": "Every change in a displayed diff is shown under its own section header", "statement": "In the displayed diff of a config file, each changed line is preceded by the header of the section that contains it, as the nearest header shown before it.", "quantifier": "every pair of config texts", "why_tests_cant": "Arbitrary documents.", "anchors": ["src/ui/full_term/problems_ui/diff.rs: diff_lines"]}
{"id": "C43", "title": "Backtraces are genuine call chains", "statement": "The addresses of a computed backtrace form a chain of recorded references starting at the requested location and ending at a function nobody references, without repetition; the search terminates on recursive call graphs, and an unreferenced origin, if reachable, is found.", "quantifier": "every recorded reference graph and start location", "why_tests_cant": "All graphs, including cycles.", "anchors": ["src/symbol_graph/backtrace.rs: find_frames"]}
{"id": "C44", "title": "Namespaces of functions in debug info are the enclosing scopes", "statement": "For every tree of debug entries, the namespace computed for a function is the sequence of names of the consecutive namespace/type entries that enclose it, innermost last; references to functions in other compilation units give the namespace of that function in its own unit.", "quantifier": "every debug-entry tree and set of units", "why_tests_cant": "Arbitrary trees encoded as a flat entry stream.", "anchors": ["src/symbol_graph/dwarf.rs: get_subprogram_namespaces, get_symbol_and_name_in_unit, unit_containing"]}
{"id": "C45", "title": "Replaying saved requests preserves their order", "statement": "Replaying saved requests processes them in the order in which they were saved.", "quantifier": "every number of saved requests", "why_tests_cant": "Unbounded number of requests.", "anchors": ["src/main.rs: save_request, replay_requests"]}
{"id": "C46", "title": "Fixes offered for a failed sandboxed program affect that program", "statement": "Each edit offered when a sandboxed build script or test fails changes the sandbox configuration used for that same program, and no other program's.", "quantifier": "every failing program and configuration", "why_tests_cant": "All crate kinds and configurations.", "anchors": ["src/config_editor.rs: fixes_for_problem, SandboxAllowNetwork, DisableSandbox", "src/sandbox.rs: for_perm_sel"]}
{"id": "C47", "title": "Possible exported APIs do not depend on hash order", "statement": "Whether a package is reported as possibly exporting an API depends only on the binary's symbols and the configuration, not on map iteration order; it is reported iff some symbol located in the package has the package's crate name and a top-level module with the API's name.", "quantifier": "every symbol table and iteration order", "why_tests_cant": "All hash orders.", "anchors": ["src/symbol_graph.rs: find_possible_exports"]}
{"id": "C48", "title": "Common-prefix suggestions are exactly the shared prefixes", "statement": "The prefixes suggested for including or excluding a set of usages are exactly the name prefixes that occur in every usage's symbol, sorted and without duplicates.", "quantifier": "every list of usages", "why_tests_cant": "Arbitrary lists.", "anchors": ["src/checker/common_prefix.rs"]}
{"id": "C49", "title": "Permission summary matches effective permissions", "statement": "The permission summary lists for each package exactly its effective permissions for the package and its build script, and the counts agree with the lists; a package counted as having no special permissions has none.", "quantifier": "every crate index and configuration", "why_tests_cant": "Arbitrary configurations.", "anchors": ["src/summary.rs"]}
{"id": "C50", "title": "Code from a package is always checked against the right scope", "statement": "The permission scope used for an API usage is build/test (own) iff the using package is the one whose build script/test is being linked, from.build/from.test iff it is another package, and the unconditional scope for all other binaries; granting at pkg.N therefore permits the use from any binary.", "quantifier": "every package, binary kind and configuration", "why_tests_cant": "Combination of scope choice and inheritance for all configurations.", "anchors": ["src/config/permissions.rs: PermissionScope::determine, parent_scope", "src/checker.rs: api_used"]}
{"id": "C51", "title": "A full run starts from a clean build directory", "statement": "If a full run (no subcommand) reports success then `cargo clean` was run and succeeded, so that every crate was compiled and checked.", "quantifier": "every outcome of the individual phases of a run", "why_tests_cant": "Tests do not make cargo clean fail; the claim is about every combination of phase outcomes.", "anchors": ["src/main.rs: Cackle::run, should_run_cargo_clean", "src/proxy.rs: clean"]}
{"id": "C52", "title": "Nobody waits forever in non-interactive mode", "statement": "In non-interactive mode, whenever the user-interface thread has handled all events, everybody who reported problems has received an answer.", "quantifier": "every interleaving of reports and UI steps, every set of problems, with and without auto-accept", "why_tests_cant": "A statement about all interleavings of threads and failing edits.", "anchors": ["src/ui/null_ui.rs", "src/problem_store.rs", "src/main.rs: run_and_report_errors"]}
{"id": "C53", "title": "Built-in process API covers the ways of starting a process", "statement": "With `import_std = [\"process\"]`, every use of a name below the modules std::process or std::os::unix::process, other than the termination functions std::process::abort and std::process::exit, is classified as the API `process`.", "quantifier": "every name below the listed modules", "why_tests_cant": "All names below a module.", "anchors": ["src/config/built_in.rs", "src/checker/api_map.rs"]}
{"id": "C54", "title": "Every instruction cargo acts on is checked", "statement": "Every line of a build script's output that cargo treats as an instruction (cargo ignores white space around a line) and that is not permitted is reported.", "quantifier": "every output and every list of allowed instructions", "why_tests_cant": "All outputs; tests use unindented instructions.", "anchors": ["src/build_script_checker.rs: BuildScriptReport::build, check_directive"]}
{"id": "C55", "title": "The scanner sees the code the compiler sees", "statement": "A source file in which the compiler sees the keyword `unsafe` followed by another token is reported by the unsafe scan.", "quantifier": "every source text", "why_tests_cant": "All source texts, including ones starting with a #! line.", "anchors": ["src/unsafe_checker.rs: scan_path, scan_string", "src/proxy/subprocess.rs: find_unsafe_in_sources"]}
{"id": "C56", "title": "The compiler always links through cackle and forbids unsafe unless permitted", "statement": "For every rustc command line, the compiler that cackle runs is told to use cackle as its linker, has unsafe code forbidden unless the crate may use unsafe, gets all other arguments unchanged and in order, and the linker finally run is the one that was requested.", "quantifier": "every rustc argument list and configuration", "why_tests_cant": "Arbitrary argument lists, in every spelling rustc accepts.", "anchors": ["src/proxy/subprocess.rs: get_command, invoke_real_linker"]}
{"id": "C57", "title": "A crate is treated as a build script exactly if it is one", "statement": "Both the compiler wrapper and the linker wrapper treat a compiled crate as a build script exactly when cargo is compiling the build script of a package, and as a test exactly when rustc was asked for a test.", "quantifier": "every crate name, package and rustc command line", "why_tests_cant": "Crate names are chosen by package authors; tests use ordinary names.", "anchors": ["src/crate_index.rs: CrateSel::from_env", "src/proxy/subprocess.rs: proxy_rustc"]}
{"id": "C58", "title": "The home directory is hidden from sandboxed programs", "statement": "In the sandbox, nothing in the home directory is visible except cargo's bin, git and registry directories, ~/.rustup, and directories bound on purpose (the package's own directory, the build directory, configured directories).", "quantifier": "every path, environment, configuration and file system", "why_tests_cant": "All paths and all combinations of settings.", "anchors": ["src/sandbox.rs: from_config, for_perm_sel"]}
{"id": "C59", "title": "Writes of sandboxed programs are confined", "statement": "A sandboxed program can change files of the host only below the configured writable directories and its output directory; rustc additionally only below its output directories, the target directory and the socket directory.", "quantifier": "every path, environment, configuration and rustc command line", "why_tests_cant": "All paths and all combinations of settings.", "anchors": ["src/sandbox.rs: for_perm_sel, for_rustc, RustcSandboxInputs"]}
{"id": "C60", "title": "Directories configured as writable are writable in the sandbox", "statement": "A directory listed in bind_writable or make_writable is writable at the same path inside the sandbox.", "quantifier": "every configuration and environment", "why_tests_cant": "All directories, including ones below those that the sandbox treats specially.", "anchors": ["src/sandbox.rs: from_config, for_rustc"]}
{"id": "C61", "title": "Registry credentials are not available to sandboxed programs", "statement": "Unless listed in pass_env or below a directory bound on purpose, the registry token variable and cargo's credentials file are not available in the sandbox.", "quantifier": "every environment and configuration", "why_tests_cant": "All environments, including a cargo home outside the home directory.", "anchors": ["src/sandbox.rs: is_cargo_env, from_config"]}
{"id": "C62", "title": "Every variable cargo sets for rustc because of a build script is available in the sandbox", "statement": "Every variable that cargo sets for rustc because the package's build script printed an instruction (in the old `cargo:` or the new `cargo::` spelling) is passed into the rustc sandbox.", "quantifier": "every build script output", "why_tests_cant": "All outputs cargo understands.", "anchors": ["src/build_script_checker.rs: BuildScriptReport::build", "src/sandbox.rs: read_env_vars, for_rustc"]}
{"id": "C63", "title": "A wrapped binary succeeds only after the main process agreed", "statement": "If a wrapped build script or test is sandboxed, its wrapper exits with success only if the program did, the main process was told so and answered that the build continues, and then cargo gets exactly the output that was reported.", "quantifier": "every sequence of attempts, configurations, program results and answers", "why_tests_cant": "Arbitrarily long sequences of retries.", "anchors": ["src/proxy/subprocess.rs: proxy_binary"]}
{"id": "C64", "title": "An offered permission fix can be applied and makes its problem disappear", "statement": "For a problem about unsafe, extern, a proc macro or a build instruction, edits are offered, each of them can be applied to the configuration file, and with the edited file the same problem does not arise.", "quantifier": "every configuration file that is accepted, package, crate kind and instruction", "why_tests_cant": "All configuration files, including old versions and unusual TOML notation.", "anchors": ["src/config_editor.rs: fixes_for_problem, AllowUnsafe, AllowExtern, AllowProcMacro, AllowBuildInstruction", "src/config/permissions.rs: unsafe_permitted_for_crate, extern_permitted_for_crate"]}
{"id": "C65", "title": "A request is answered Continue only after a clean check", "statement": "A sub-process is told to continue only if a check of its request under the then-current configuration found nothing, or if all problems found are of a kind after which the sub-process repeats its work and asks again.", "quantifier": "every sequence of checks, resolutions, configuration reloads and aborts", "why_tests_cant": "Arbitrary interleavings of user decisions and reloads.", "anchors": ["src/main.rs: RequestHandler::handle_request", "src/problem.rs: should_send_retry_to_subprocess"]}
{"id": "C66", "title": "Auto-accept applies and saves exactly the first offered edit of each problem", "statement": "With the non-interactive auto-accept mode, the saved configuration file is the old one with the first offered edit of each fixable problem applied in order; only the remaining problems decide whether the run is aborted.", "quantifier": "every set of problems and every configuration file", "why_tests_cant": "Arbitrarily many problems, any edits.", "anchors": ["src/ui/null_ui.rs: accept_all_single_edits, NullUi::run"]}
{"id": "C67", "title": "Nobody is told to continue before accepted edits are saved", "statement": "In auto-accept mode a waiting request is released only when the edits that settle its problems are in the configuration file.", "quantifier": "every set of problems and every failure of saving", "why_tests_cant": "Depends on the order of two effects and on a failure in between.", "anchors": ["src/ui/null_ui.rs: accept_all_single_edits"]}
{"id": "C68", "title": "The dep-info file that is read is the one that rustc writes", "statement": "Whenever rustc is asked to write a dep-info file, the file whose source list is scanned is that file.", "quantifier": "every rustc command line", "why_tests_cant": "All command lines rustc accepts, including options added by RUSTFLAGS.", "anchors": ["src/deps.rs: deps_path_from_rustc_args"]}
{"id": "C69", "title": "What a sandboxed program needs is available in the sandbox", "statement": "In the sandbox of a build script or test its OUT_DIR is writable and its build directory is visible; in the sandbox of rustc the directories it is told to write to and the target directory are writable and the workspace is visible; a configured writable directory that cannot be used prevents the program from being started.", "quantifier": "every environment, configuration, command line and file system", "why_tests_cant": "All paths and all combinations of settings, including directories inside one another.", "anchors": ["src/sandbox.rs: for_perm_sel, for_rustc, from_config, build_directory, RustcSandboxInputs::from_env"]}
{"id": "C70", "title": "Edits of API definitions and imports change exactly what they say", "statement": "After an edit that extends an API, excludes from it, marks a package as not exporting it, imports an API, inlines an API or ignores a package's APIs, the configuration file still loads; the named API definition or import list has what it had plus exactly what the edit names, and nothing else differs.", "quantifier": "every accepted configuration file, every such edit", "why_tests_cant": "All configuration files and edits; unit tests compare a few texts.", "anchors": ["src/config_editor.rs: ExtendApi, ExcludeFromApi, NoDetectApi, ImportApi, IgnoreApi, InlineApi, InlineStdApi", "src/config.rs: parse_raw"]}
{"id": "C71", "title": "Answering a problem about exported APIs makes it disappear", "statement": "For a package that seems to export or exports an API, every offered edit that is applied leads to a configuration under which the same finding is not reported again, and reports about other packages are unaffected.", "quantifier": "every accepted configuration file, set of packages and set of exported APIs", "why_tests_cant": "All configuration files and all combinations of packages.", "anchors": ["src/config_editor.rs: fixes_for_problem", "src/config.rs: unused_imports", "src/checker.rs: possible_exported_api_problems"]}
{"id": "C72", "title": "Removing unused configuration removes exactly that", "statement": "Removing an unused section removes that section (for a package's own section everything of the package); removing unused API grants removes exactly these grants from exactly that section; everything else in the configuration is unchanged.", "quantifier": "every accepted configuration file and section", "why_tests_cant": "All configuration files and nestings.", "anchors": ["src/config_editor.rs: RemoveUnusedAllowApis, RemoveUnusedPkgConfig"]}
{"id": "C73", "title": "Switching a built-in API on and off", "statement": "Toggling a built-in API adds it if it was not imported and removes it if it was, changes nothing else in the file, and the loaded definition gains the built-in paths or falls back to what the file defines.", "quantifier": "every accepted configuration file without repeated imports, every built-in API", "why_tests_cant": "All configuration files.", "anchors": ["src/config_editor.rs: toggle_std_import", "src/config.rs: merge_built_ins"]}
{"id": "C74", "title": "V0-mangled plain paths are recovered exactly", "statement": "For every path of identifiers (not keywords), with any disambiguators, the v0-mangled symbol for that path yields exactly one non-empty name, equal to the path.", "quantifier": "every path of identifiers, every choice of disambiguators and namespaces", "why_tests_cant": "Arbitrary identifier lengths, contents and nesting depths.", "anchors": ["src/demangle.rs: DemangleIterator", "src/names.rs: NamesIterator", "src/symbol.rs: Symbol::names"]}
{"id": "C75", "title": "No path in a v0 symbol is hidden", "statement": "Each path that a v0-mangled symbol is about (the item itself and its generic arguments) is the beginning of one of the names of the symbol, so that the use of an API by it is noticed.", "quantifier": "every v0 symbol built from paths, nesting, generic arguments, shims, trait implementations", "why_tests_cant": "Arbitrary nesting; tests use a handful of symbols.", "anchors": ["src/demangle.rs: DemangleIterator", "src/names.rs: NamesIterator"]}
{"id": "C76", "title": "Every path in a debug name is found", "statement": "Each path occurring in the debug name of a function or type (types, generic arguments, trait implementations, closures, with the namespace it is in) is one of the names extracted from it.", "quantifier": "every debug name built from paths, references, pointers, slices, tuples, generic arguments, trait implementations and closures, and every namespace", "why_tests_cant": "Arbitrary nesting; tests use a handful of names.", "anchors": ["src/demangle.rs: NonMangledIterator", "src/names.rs: NamesIterator"]}
{"id": "C77", "title": "Every use of an API that is not permitted is reported", "statement": "If a binary was checked without an error, then for every reference (a relocation, followed through anonymous sections, or an inlined function) at a place in a package's source file, from a function that is not part of an API to one that is, where the API is not granted to the package in this binary, a problem with the package, the scope, the API and that place is reported.", "quantifier": "every checker state, binary, object file and iteration order", "why_tests_cant": "A composition of reading relocations, name extraction, classification, de-duplication, caching and permission checks; a test covers one binary, and the interactions (cache, shortest name, off-tree exception) only show for unusual ones.", "anchors": ["src/symbol_graph.rs: scan_object_with_bin_bytes, process_object_file_bytes, process_reference, emit_shortest_api_usages", "src/checker.rs: api_used"]}
{"id": "C78", "title": "Only uses of APIs that are not permitted are reported", "statement": "Each usage in a reported API problem is at the place of a reference from a function outside the API to one in the API, by the reported name, in a source file of the reported package, and the API is not granted to the package there.", "quantifier": "every checker state, binary, object file and iteration order", "why_tests_cant": "Absence of spurious reports for all binaries.", "anchors": ["src/symbol_graph.rs: scan_object_with_bin_bytes, process_reference, emit_shortest_api_usages", "src/checker.rs: api_used"]}
{"id": "C79", "title": "An offered change of an API definition settles the problem", "statement": "If the user accepts an offered exclusion, none of the used names is in the API any more; if they accept an offered inclusion, each function that used the API is itself in the API. An inclusion is only offered for a path that is not included yet, an exclusion only for a proper part of something included.", "quantifier": "every configuration file, API, list of usages, and iteration order", "why_tests_cant": "Composition of common prefixes, the edit of the document, reading it again, and classification, for arbitrary names and definitions.", "anchors": ["src/config_editor.rs: add_include_fixes, add_exclude_fixes, ExtendApi, ExcludeFromApi", "src/checker/common_prefix.rs"]}
{"id": "C80", "title": "A crate name leads to a package that provides it", "statement": "After reading the output of `cargo tree`, a crate name is known exactly if a package of the dependency tree (a root or a transitive dependency) provides it, and the package found for it is one that does.", "quantifier": "every dependency graph, roots, and output of cargo tree for them", "why_tests_cant": "Arbitrary graphs; packages without libraries and several versions of a package.", "anchors": ["src/crate_index/lib_tree.rs: process_line, build", "src/crate_index.rs: name_prefix_to_pkg_id"]}
{"id": "C81", "title": "The summary prints what was asked for", "statement": "Each kind of summary asked for (by package, by permission, impure proc macros, counts; all of them by default) is in the output, for people under its heading if there are several, in JSON under a name of its own with that content.", "quantifier": "every combination of options and every list of packages", "why_tests_cant": "Combinations of options and sections; JSON sections can replace each other.", "anchors": ["src/summary.rs: print, with_defaults, num_selected, json_print_by_permission, json_print_impure_proc_macros, json_print_count"]}
{"id": "C82", "title": "Every inlined function is reported with its caller", "statement": "For every function inlined into code that does not belong to the standard library, there is a report with the address of its code, its symbol and name, the nearest enclosing function that has a name and is not looked through (core::ops::function), and the place of the call; and every report is about such a function.", "quantifier": "every forest of debug entries, set of units, and choice of attributes", "why_tests_cant": "Compilers describe the same nesting in many ways (low end or ranges, declarations apart from definitions, blocks, other units); a test binary shows only a few.", "anchors": ["src/symbol_graph/dwarf.rs: scan, InlinedFunctionScanner::handle_attribute, get_inlined_function, get_symbol_and_name"]}
{"id": "C83", "title": "The backtrace of an inlined function goes on from the enclosing symbol", "statement": "With the report of an inlined function goes the start of the (not inlined) function its code is in, which is where the backtrace looks for callers.", "quantifier": "every forest of debug entries and set of units", "why_tests_cant": "Only shows for backtraces of inlined code; the value depends on the nesting.", "anchors": ["src/symbol_graph/dwarf.rs: InlinedFunctionScanner::handle_attribute, start_top_level", "src/symbol_graph/backtrace.rs"]}
{"id": "C84", "title": "Declarations are recorded with their own name and place", "statement": "For each symbol declared by a function or variable in a unit that is not the standard library's something is recorded, and the name (with its namespace), file, line and column recorded for a symbol are those of one declaration of that symbol.", "quantifier": "every forest of debug entries and set of units", "why_tests_cant": "Arbitrary trees, attribute orders and missing attributes.", "anchors": ["src/symbol_graph/dwarf.rs: SymbolDebugInfoScanner, SymbolDebugInfo::source_location, UnitState::namespace"]}
{"id": "C85", "title": "No key crashes the full-screen user interface", "statement": "Whatever has happened before, pressing a key or receiving an event does not make the user interface panic.", "quantifier": "every reachable state of the user interface, every key, every event, any interleaving with other threads", "why_tests_cant": "Depends on the length of lists that other threads and earlier keys change; a test presses a few keys in a fixed state.", "anchors": ["src/ui/full_term.rs: update_counter, FullTermUi::run", "src/ui/full_term/problems_ui.rs: handle_key"]}
{"id": "C86", "title": "The config file is changed only by accepted edits", "statement": "The full-screen user interface changes the config file only when the user accepts the highlighted edit, or by the only edits of problems after the user has confirmed auto-accept, and the new text is the old one with exactly these edits (and the comment that was entered).", "quantifier": "every reachable state, every key and event, any interleaving with other threads", "why_tests_cant": "All sequences of keys; a write in an unexpected state only shows for particular ones.", "anchors": ["src/ui/full_term/problems_ui.rs: apply_selected_edit, accept_all_single_edits, problems_added"]}
{"id": "C87", "title": "Nothing is approved after the user has quit", "statement": "After the user has quit, the user interface neither changes the config file nor resolves problems.", "quantifier": "every reachable state after quitting, every later event and key", "why_tests_cant": "Depends on events that arrive while the build is being stopped.", "anchors": ["src/ui/full_term.rs: FullTermUi::run", "src/ui/full_term/problems_ui.rs: problems_added"]}
{"id": "C88", "title": "A comment belongs to the edit for which it was entered", "statement": "When the edits of a problem are opened, no comment is set; a comment is set only by leaving the input with Enter.", "quantifier": "every reachable state and key", "why_tests_cant": "Sequences of keys that leave and enter screens.", "anchors": ["src/ui/full_term/problems_ui.rs: handle_key, apply_selected_edit"]}
{"id": "C89", "title": "Accepting an edit does exactly what it says", "statement": "Accepting the highlighted edit writes the config file with this edit, replaces the problem by the problems that follow from it, keeps all other problems that are not settled by the new file, and returns to the problems; if it fails, an error is shown and nothing else changes.", "quantifier": "every reachable state, problem, edit and failure", "why_tests_cant": "All stores, edits and failures.", "anchors": ["src/ui/full_term/problems_ui.rs: apply_selected_edit", "src/problem_store.rs: replace, resolve_problems_with_empty_diff"]}
{"id": "C90", "title": "While there are problems, one is selected", "statement": "As long as there are unsolved problems, one of them is selected, so that the keys that act on a problem have an effect.", "quantifier": "every reachable state, any interleaving with other threads", "why_tests_cant": "The index is kept while other code shortens the list.", "anchors": ["src/ui/full_term/problems_ui.rs: handle_key, accept_all_single_edits"]}
{"id": "C91", "title": "The selection moves only by keys", "statement": "Reports by other threads and reloads of the config do not change which problem is selected.", "quantifier": "every reachable state, any interleaving with other threads", "why_tests_cant": "Depends on what other threads do between two keys.", "anchors": ["src/ui/full_term/problems_ui.rs: problems_added", "src/problem_store.rs: add"]}
{"id": "C92", "title": "Quitting stops the build", "statement": "Unless a comment is being entered, q makes the user interface tell cargo to stop and everything that waits for an answer to give up, including what is reported later.", "quantifier": "every reachable state, any interleaving with other threads", "why_tests_cant": "All screens, with and without an error, and reports that arrive later.", "anchors": ["src/ui/full_term.rs: FullTermUi::run", "src/problem_store.rs: abort"]}
{"id": "C93", "title": "The edit that is applied is the one on the screen", "statement": "When the user accepts an edit, the edit that was highlighted when the screen was last drawn is applied.", "quantifier": "every reachable state, any interleaving with other threads", "why_tests_cant": "A race between drawing, other threads and the key.", "anchors": ["src/ui/full_term.rs: FullTermUi::run", "src/ui/full_term/problems_ui.rs: apply_selected_edit, edits_for_problem"]}
{"id": "C94", "title": "Only q quits", "statement": "The full-screen user interface is left only by q, pressed when no error is shown and no comment is being entered; until then the list of problems is at the bottom of the stack of screens.", "quantifier": "every reachable state, every key and event", "why_tests_cant": "All sequences of keys.", "anchors": ["src/ui/full_term/problems_ui.rs: handle_key"]}
{"id": "C95", "title": "The end of the input does not leave anybody waiting", "statement": "With the line-based user interface, when standard input ends while a problem is being asked about, everybody who waits for an answer gets one, and nothing is approved.", "quantifier": "every reachable state at a prompt, any interleaving with other threads", "why_tests_cant": "Non-termination cannot be observed by a test; depends on a closed standard input.", "anchors": ["src/ui/basic_term.rs: run, get_action, read_line"]}
{"id": "C96", "title": "Errors do not end the line-based user interface", "statement": "When a fix cannot be applied or written, a diff cannot be computed or the first config file cannot be created, the user is told and asked again; the thread ends only when it is told to while there is no problem.", "quantifier": "every reachable state, input and failure", "why_tests_cant": "Needs failures of the file system at particular moments.", "anchors": ["src/ui/basic_term.rs: run, perform_action, create_initial_config"]}
{"id": "C97", "title": "An answer does exactly what was shown", "statement": "Typing the number of a fix (with blanks around it) writes the config file with exactly this fix and resolves exactly the problem that was shown; typing d and a number changes nothing; any other line approves nothing.", "quantifier": "every reachable state, list of fixes and line", "why_tests_cant": "All lines and all lists of fixes.", "anchors": ["src/ui/basic_term.rs: get_action, fix_index, perform_action"]}
{"id": "C98", "title": "Nothing is approved without the user", "statement": "With the line-based user interface, a problem is solved and the config file is written only because the user chose a fix, confirmed the first config file, or changed the config file by other means.", "quantifier": "every execution, any interleaving with other threads", "why_tests_cant": "All sequences of lines, time-outs, events and changes of the file.", "anchors": ["src/ui/basic_term.rs: run, get_action, perform_action"]}
{"id": "C99", "title": "The first config file restricts the APIs that were chosen", "statement": "The first config file that the line-based user interface writes has the latest version, the available sandbox and exactly the APIs of the answer that was accepted.", "quantifier": "every sequence of answers", "why_tests_cant": "All answers, including repeated names and answers after a rejected one.", "anchors": ["src/ui/basic_term.rs: create_initial_config", "src/config_editor.rs: toggle_std_import, set_version, set_sandbox_kind"]}
{"id": "C100", "title": "Answering all questions lets the build go on", "statement": "Every report leads to questions about its problems; choosing an applicable fix for each problem solves all of them, and everybody who waits is told to continue.", "quantifier": "every reachable state and number of problems, any interleaving of reports", "why_tests_cant": "Arbitrarily many problems and reports; lost wake-ups only show for particular interleavings.", "anchors": ["src/ui/basic_term.rs: run", "src/problem_store.rs: add, resolve"]}
{"id": "C101", "title": "Every object file in the target directory is scanned", "statement": "Each object file or Rust library that the linker is given and that really is in the target directory is scanned, and nothing else is.", "quantifier": "every disk with symbolic links, target directory, linker command line", "why_tests_cant": "Depends on how the target directory is set up on the user's disk; the repository's tests use one layout.", "anchors": ["src/link_info.rs: from_env, object_paths_under, has_supported_extension", "src/main.rs: Cackle::new (target_dir)", "src/checker.rs: check_linker_invocation"]}
{"id": "C102", "title": "What is run is what was analysed", "statement": "After a program has been linked, running it runs the linked program, with exactly the given arguments, and it is the file that the main process was told about; during the build it is run by cackle's wrapper for programs with the kind of crate that was linked. If linking fails or a library is linked, no file is changed.", "quantifier": "every path, program, environment, list of arguments", "why_tests_cant": "The path ends up in a shell script; all characters of all paths and arguments.", "anchors": ["src/proxy/subprocess.rs: proxy_linker, setup_bin_wrapper, handle_wrapped_binaries", "src/main.rs: invoke_wrapped_binary"]}
{"id": "C103", "title": "Originals are kept apart", "statement": "The original of a program is never kept under the name of the program, originals of different programs have different names, and linking one program keeps the script and the original of all others.", "quantifier": "all pairs of paths", "why_tests_cant": "All pairs of paths with and without extensions.", "anchors": ["src/proxy/subprocess.rs: orig_bin_path, setup_bin_wrapper"]}
{"id": "C104", "title": "Each process does its own job", "statement": "A process started during the build is never a second main process; it wraps rustc if it is called with the path of rustc; if it acts as linker, it reports the file after the first -o; outside of a build the arguments are those of the user.", "quantifier": "every environment and list of arguments", "why_tests_cant": "All argument lists.", "anchors": ["src/proxy/subprocess.rs: handle_wrapped_binaries, is_path_to_rustc", "src/link_info.rs: get_output_file", "src/main.rs: main"]}
{"id": "C105", "title": "The options of the user are in force", "statement": "Cargo is told the profile (command line, then config file, then default), features, target, packages and flags that the user asked for, for a full build as well as for cargo test and cargo run, and the program that is run gets exactly its own arguments.", "quantifier": "every combination of options, config and arguments passed on to cargo", "why_tests_cant": "All combinations of options and arguments that are passed on.", "anchors": ["src/proxy/cargo.rs: command, profile_name", "src/proxy.rs: invoke_cargo_build"]}
{"id": "C106", "title": "Nothing that was built before is reused", "statement": "After the clean that a full run starts with, nothing is left that its build could reuse instead of compiling and checking it again.", "quantifier": "every set of files, options, config and cargo config", "why_tests_cant": "Needs two builds with the right options; depends on what is on the disk.", "anchors": ["src/proxy.rs: clean, invoke_cargo_build", "src/proxy/cargo.rs: command", "src/main.rs: run"]}
{"id": "C107", "title": "The analysis gets the settings it needs", "statement": "With the default profile, whatever the profiles in Cargo.toml and in cargo's config say, each package is built without optimisation, without incremental compilation and with debug info that is not split.", "quantifier": "every Cargo.toml, cargo config and package", "why_tests_cant": "All combinations of profile settings.", "anchors": ["src/proxy/cargo.rs: command"]}
{"id": "C108", "title": "Processes of the build know what they belong to", "statement": "The processes that cargo starts are told about the socket, the config, the profile that is being built, the target directory (which is where cargo is told to put what it builds), the workspace and the packages with several versions; none takes itself for the main process, and none for the wrapper of a crate unless cargo says so.", "quantifier": "every environment of the main process and all options", "why_tests_cant": "All environments that cackle may be started in.", "anchors": ["src/proxy.rs: invoke_cargo_build", "src/proxy/cargo.rs: command", "src/crate_index.rs: add_internal_env", "src/proxy/subprocess.rs: handle_wrapped_binaries"]}
{"id": "C109", "title": "Success means that every request was approved", "statement": "If the build succeeds, every request that a program made has been handled to its end without a complaint, and the program was told to continue; with C08 and C15: every binary whose linking was reported has been analysed and nothing was found.", "quantifier": "every interleaving of cargo, the programs it runs, the request threads, the user and the main thread", "why_tests_cant": "Concurrency of arbitrarily many processes and threads; the tests run one build at a time with one schedule.", "anchors": ["src/proxy.rs: invoke_cargo_build, process_request", "src/main.rs: RequestHandler::handle_request"]}
{"id": "C110", "title": "Told to stop means stop", "statement": "When the user quits, or a check fails or is refused (before the program is told to give up), the signal to abort is sent, and after it cargo is stopped by the main thread within a bounded number of its steps, without waiting for anybody.", "quantifier": "every interleaving, every state of the loop", "why_tests_cant": "Needs particular timing and programs that misbehave.", "anchors": ["src/proxy.rs: invoke_cargo_build"]}
{"id": "C111", "title": "When the build is over cargo has ended", "statement": "When the function that runs cargo returns, cargo has ended, and after a success its exit code was 0.", "quantifier": "every interleaving and every way to return", "why_tests_cant": "Only visible on error paths with a running child process.", "anchors": ["src/proxy.rs: invoke_cargo_build"]}
{"id": "C112", "title": "Every program gets the answer to its own request", "statement": "The answer that a program gets is the result of handling the request it made; no answer is given twice or changed, answers of different programs come from different handlers, and a thread whose handler has a result answers by itself.", "quantifier": "every interleaving of arbitrarily many connections", "why_tests_cant": "All interleavings of arbitrarily many connections.", "anchors": ["src/proxy.rs: invoke_cargo_build, process_request"]}
{"id": "C113", "title": "A failed check fails the build with its error", "statement": "If handling a request fails, the build fails and reports the error of a request; an error that is reported is the error of a request that really failed.", "quantifier": "every interleaving", "why_tests_cant": "The order in which the answer, the error and cargo's end arrive.", "anchors": ["src/proxy.rs: invoke_cargo_build, process_request"]}
{"id": "C114", "title": "The build is over when cargo is", "statement": "When cargo has ended, the loop returns within a bounded number of its steps, without waiting for anybody.", "quantifier": "every interleaving, every state of the loop", "why_tests_cant": "Needs programs that outlive cargo.", "anchors": ["src/proxy.rs: invoke_cargo_build"]}
{"id": "C115", "title": "Every proc macro has to be allowed", "statement": "For every proc macro among the packages reported by cargo that the config does not allow, a problem is reported, and for nothing else.", "quantifier": "every list of packages, every config", "why_tests_cant": "Needs dependency trees of arbitrary shape, with several versions and sources of a package.", "anchors": ["src/crate_index.rs: CrateIndex::new, proc_macros", "src/checker.rs: base_problems"]}
{"id": "C116", "title": "Whatever is built from a package has its permissions and sandbox", "statement": "For the package itself, its build script and its test programs: unsafe code is permitted, and the sandbox and its network chosen, as the config says for that package.", "quantifier": "every list of packages, every config, everything that can be built", "why_tests_cant": "The tests have a few packages with the usual targets.", "anchors": ["src/crate_index.rs: CrateIndex::new, add_permission_selectors", "src/config/permissions.rs: from_config_with_inheritance"]}
{"id": "C117", "title": "A file in the directory of a package belongs to that package", "statement": "A source file that rustc did not list belongs to the package in whose directory it is, the innermost one if directories are nested; outside of all of them the lookup fails.", "quantifier": "every list of packages, every path, every history of requests", "why_tests_cant": "Needs nested packages and files that rustc does not list.", "anchors": ["src/crate_index.rs: CrateIndex::new, package_id_for_path", "src/checker.rs: pkg_ids_from_source_path"]}
{"id": "C118", "title": "APIs are imported from the newest version of a package", "statement": "The APIs imported for a package name are those exported in the directory of a newest package with that name; if there is none, there is nothing to import.", "quantifier": "every list of packages in every order", "why_tests_cant": "Needs several versions in different orders.", "anchors": ["src/crate_index.rs: CrateIndex::new, newest_package_id_with_name, pkg_dir", "src/config.rs: load_imports, exported_config_for_package"]}
{"id": "C119", "title": "A request arrives exactly as it was sent", "statement": "The checker reads from the connection exactly the request that a wrapper wrote, whatever characters are in names, paths and output; a request with a path that is not text is an error of the sender; part of a request is never taken for one.", "quantifier": "every request", "why_tests_cant": "Tests send a few plain requests; escapes, control characters, number limits and cut connections are unbounded.", "anchors": ["src/proxy/rpc.rs: Request, write_to_stream, read_from_stream", "src/link_info.rs: LinkInfo", "src/location.rs: SourceLocation", "src/crate_index.rs: CrateSel"]}
{"id": "C120", "title": "Sub-processes use the permissions in force", "statement": "Whatever sequence of loading and failing to load the config there was, a wrapper that starts reads exactly the settings, permissions (with inheritance) and rustc sandbox that the checker uses.", "quantifier": "every sequence of configs and failures", "why_tests_cant": "The test has one config and no failures.", "anchors": ["src/proxy/subprocess.rs: SubprocessConfig", "src/checker.rs: load_config", "src/config/permissions.rs: Permissions, serialize"]}
{"id": "C121", "title": "An answer arrives exactly as it was sent", "statement": "A wrapper that waits for an answer reads exactly the one that was written; a connection closed early is an error and never permission to go on.", "quantifier": "both answers, every point where the connection is cut", "why_tests_cant": "Needs connections that end at every byte.", "anchors": ["src/proxy/rpc.rs: write_to_stream, read_from_stream", "src/outcome.rs: Outcome"]}
{"id": "C122", "title": "A build that succeeds uses only permitted APIs", "statement": "If cackle reports success after a full run, then in every binary that was linked, every API that a package uses is granted to that package by the configuration.", "quantifier": "every content of binaries and object files, every execution of the build with concurrent requests, every answer of the user", "why_tests_cant": "Composes the analysis of binaries, concurrent handlers, the server and the phases of a run; tests cover each on fixed inputs.", "anchors": ["src/main.rs: Cackle::run", "src/checker.rs: rustc_complete, check_object_paths, multiple_apis_used, check_unused", "src/symbol_graph.rs: scan_objects", "src/proxy.rs: invoke_cargo_build"]}
{"id": "C123", "title": "The report lists every use", "statement": "The report of a disallowed use of an API lists every use that was found, with its file, function and position, as often as it was found, and nothing else.", "quantifier": "every list of uses and all names", "why_tests_cant": "Tests compare reports of fixed uses; names and groupings are unbounded and partly chosen by the checked package.", "anchors": ["src/problem.rs: display_usages, Display for ApiUsages, Display for Problem"]}
{"id": "C124", "title": "A report says which permission is missing", "statement": "From the text that is printed for a disallowed use of an API, interactively or not, it can be told which permission is missing: package, scope and API.", "quantifier": "every pair of disallowed uses", "why_tests_cant": "Injectivity over all pairs of problems; tests look at single texts.", "anchors": ["src/problem.rs: Display for Problem, Display for ApiUsages", "src/crate_index.rs: Display for CrateSel"]}
{"id": "C125", "title": "The highlighted row is what the keys act on", "statement": "While there are problems and rows of the list are selected in the full-screen user interface, the row that is highlighted is the one that the keys act on.", "quantifier": "every sequence of keys, reports, reloads and file changes", "why_tests_cant": "Depends on all interleavings of keys with other threads.", "anchors": ["src/ui/full_term/problems_ui.rs: render_problems, handle_key"]}
{"id": "C126", "title": "The line of a use is shown and marked", "statement": "When a use is selected whose line exists in the file, that line, and no other, is marked on the screen, however small the screen is; the token at its column is highlighted.", "quantifier": "every source file, line, column and size of the screen", "why_tests_cant": "All sizes and files; tests use one.", "anchors": ["src/ui/full_term/problems_ui.rs: usage_source_lines, format_line, render_source_location"]}
{"id": "C127", "title": "An edit is shown in full before it is accepted", "statement": "The details of an edit show every line of the config file that it adds or removes, however small the screen is.", "quantifier": "every edit, config file and size of the screen", "why_tests_cant": "All sizes and diffs; tests use one.", "anchors": ["src/ui/full_term/problems_ui.rs: config_diff_lines, render_edit_help_and_diff", "src/ui/full_term/problems_ui/diff.rs: diff_lines, remove_excess_context"]}
{"id": "C128", "title": "Problems that go away with an edit are settled", "statement": "When the user accepts an edit, other problems may disappear from the list without being asked about. Every problem that disappears in this way does not arise again with the new config file (for a program that failed in its sandbox: it runs with another sandbox configuration).", "quantifier": "every config file, accepted edit and list of problems", "why_tests_cant": "All pairs of edits and problems; tests have one example.", "anchors": ["src/problem_store.rs: resolve_problems_with_empty_diff", "src/config_editor.rs: fixes_for_problem, trait Edit"]}
{"id": "C129", "title": "The title of an edit says what it permits", "statement": "Accepting the edit whose title says that a package may use an API (in some circumstances) permits this to that package in these circumstances, and nothing else is newly permitted. Different edits for one problem have different titles.", "quantifier": "every config file, package, scope and API; every problem", "why_tests_cant": "Quantifies over everything that the edit could permit in addition.", "anchors": ["src/config_editor.rs: title, apply", "src/config/permissions.rs"]}
{"id": "C130", "title": "The set-up does what was chosen", "statement": "When there is no config file, the user is asked for a sandbox and, with a custom configuration, about every built-in API. The resulting file always loads, has the chosen sandbox, defines exactly the APIs that were imported or inlined, as they are built in, and permits nothing.", "quantifier": "every sequence of answers, in every order", "why_tests_cant": "Exponentially many combinations of answers and orders.", "anchors": ["src/config_editor.rs: CreateInitialConfig, CreateRecommendedConfig, SelectSandbox, ImportStdApi, InlineStdApi, IgnoreStdApi"]}
{"id": "C131", "title": "Everything that cargo prints is shown", "statement": "With a user interface, cackle captures what cargo prints and passes it on. When cackle ends, everything that cargo printed has been shown, without changes and in the right order for each of the two streams; also if cargo failed, when it contains the reason.", "quantifier": "every output, capacity of the pipes, and interleaving of cargo, the output threads, the user interface and the main thread", "why_tests_cant": "Depends on the schedule: the tests run without a user interface, where nothing is captured.", "anchors": ["src/proxy.rs: start_output_pass_through_thread, CargoOutputWaiter", "src/main.rs: run_and_report_errors"]}
{"id": "C132", "title": "Output does not stop the build", "statement": "However much cargo prints and whenever the user interface becomes active, the build goes on and cackle ends (if the user answers all questions).", "quantifier": "every output, capacity of the pipes and interleaving", "why_tests_cant": "A deadlock that needs a problem to be shown and a full pipe; tests run without a user interface.", "anchors": ["src/proxy.rs: start_output_pass_through_thread", "src/ui/full_term.rs: Terminal::new"]}
{"id": "C133", "title": "The command shown for a failed program is the one that was run", "statement": "When a program fails in its sandbox, the command is shown, quoted as needed. Different commands are shown differently, and pasting the text into a shell runs this command and nothing else.", "quantifier": "every sandbox configuration, environment, program and arguments", "why_tests_cant": "Arguments are arbitrary texts, among them the description that the author of a package wrote.", "anchors": ["src/sandbox/bubblewrap.rs: CommandDisplay", "src/problem.rs: impl Display for ExecutionFailed"]}
{"id": "C134", "title": "Only the Rust distribution is exempt from the analysis", "statement": "Cackle does not look at code that belongs to the Rust distribution. Everything else that is compiled on this machine, in whichever directory it is, is analysed: cackle learns from its debug information what it would learn without the exemption.", "quantifier": "every output and exit status of rustc, and all units of debug information", "why_tests_cant": "The exemption goes by the names of directories, and tests are always run in the same few directories.", "anchors": ["src/main.rs: determine_sysroot", "src/checker.rs: is_in_rust_std", "src/symbol_graph/dwarf.rs: DwarfScanner::scan"]}
{"id": "C135", "title": "Everything can be reached with the keys", "statement": "As long as the user has not quit and no question is open, there are keys that lead from every screen to every problem in the list, to every place in the source code that the problem is about, and to every edit that is offered for it. Getting there changes nothing but what is selected.", "quantifier": "all executions of the user interface, all problems, places and edits", "why_tests_cant": "Tests press a few keys from the start screen; reachability is a statement about all screens and all lengths of the lists.", "anchors": ["src/ui/full_term/problems_ui.rs: handle_key", "src/ui/full_term/problems_ui.rs: usages_for_problem", "src/ui/full_term.rs: update_counter"]}
{"id": "C136", "title": "Comments that were entered before can be recalled", "statement": "When entering a comment, Up and Down offer the comments entered before in this run: each of them once, the latest first, and none that was not entered. With an empty input one Up gives the latest comment.", "quantifier": "all executions of the user interface and all comments", "why_tests_cant": "The history depends on everything that was typed before, which tests cannot enumerate.", "anchors": ["src/ui/full_term/problems_ui.rs: handle_key"]}
{"id": "C137", "title": "No path in a legacy symbol is hidden", "statement": "Each path that a symbol with legacy mangling is about is the beginning of one of the names that are compared with the APIs, so that a use of an API is noticed. These are the paths in the type that implements a trait, the trait together with its function, the paths in generic arguments, and the path of the function of a generic type.", "quantifier": "all symbols with legacy mangling that have types in them", "why_tests_cant": "Symbols nest types without limit; tests show a few symbols.", "anchors": ["src/demangle.rs: DemangleIterator", "src/names.rs: NamesIterator"]}
{"id": "C138", "title": "Code that the compiler rejects as unsafe is reported with its places", "statement": "If rustc fails, then exactly the errors of the lints `unsafe_code` and `missing_unsafe_on_extern` in its output are taken as uses of unsafe code and of extern blocks, each at its first span and with the canonical path of the file. The user is asked about them and the answer decides whether rustc is run again or the build is given up. Any other failure is rustc's own: nobody is asked and the wrapper ends with rustc's status.", "quantifier": "all outputs of rustc: any number of lines, any JSON diagnostics with further fields and any whitespace, and lines that are no diagnostics", "why_tests_cant": "The messages have many optional fields and nested values, and arbitrary text is mixed with them; tests show two messages.", "anchors": ["src/proxy/errors.rs: get_disallowed_unsafe_locations", "src/proxy/errors.rs: get_disallowed_extern_locations", "src/proxy/subprocess.rs: RustcRunner::run"]}
{"id": "C139", "title": "What is permitted is not asked about, and what is permitted or not used compiles", "statement": "If a crate may use unsafe code, then the result of compiling it does not depend on any answer about unsafe code; the same for extern blocks. If rustc succeeds and each of the two is permitted or does not occur in the sources, then the wrapper succeeds.", "quantifier": "all crates, configurations, sources and behaviours of rustc", "why_tests_cant": "Whether a question is asked depends on the configuration, on the lints that the crate itself sets and on all its sources.", "anchors": ["src/proxy/subprocess.rs: RustcRunner::run", "src/proxy/subprocess.rs: proxy_rustc"]}
{"id": "C140", "title": "Passing a function as a value does not hide its use", "statement": "Functions that are passed as values are called through small functions in core::ops::function. If a function refers to such a function and that one, directly or through more of them, to a function in an API that is not permitted, then this is reported as a use by the first function. Exactly the functions in core::ops::function are treated in this way.", "quantifier": "all binaries, object files, configurations and chains of such functions", "why_tests_cant": "Which object file the small functions end up in depends on how the compiler divides crates into object files.", "anchors": ["src/symbol.rs: Symbol::is_look_through", "src/symbol_graph.rs: load_symbols", "src/symbol_graph.rs: ApiUsageCollector::process_object_file_bytes"]}
{"id": "C141", "title": "Every setting in the config file is in force or refused", "statement": "If a config file is accepted, then everything that is written in it is either a section or a setting that CONFIG.md describes, at the place where it is written and with a value of the right kind, and that value is in force there; settings that are not written have their default. A name that is misspelt, a setting at a wrong place or a value of a wrong kind is an error. Everything that CONFIG.md shows is accepted.", "quantifier": "all TOML trees", "why_tests_cant": "A reader that ignores one unknown key or one place passes every test that uses only correct keys; the places are unbounded because packages and APIs are named freely.", "anchors": ["src/config.rs: RawConfig", "src/config.rs: parse_file", "src/config.rs: parse_raw", "src/config/permissions.rs", "src/config_validation.rs: validate", "CONFIG.md"]}
{"id": "C142", "title": "A run is about the project it is started in", "statement": "Without --path, cackle checks the package in whose directory it is started, also from a subdirectory, and does not run outside a package. The config file is cackle.toml in the root of the workspace unless --cackle-path names another one.", "quantifier": "all directory trees and current directories", "why_tests_cant": "Depends on where it is started and on which directories have manifests.", "anchors": ["src/main.rs: root_path", "src/main.rs: Cackle::new", "CONFIG.md"]}
{"id": "C143", "title": "Dead code does not count", "statement": "A use of an API is reported only if the code that uses it is in the binary that was linked. Code that the linker removed makes no difference, whichever linker is used. Where symbols are missing, the debug information is used instead.", "quantifier": "all binaries, object files and debug information, as written by GNU ld and lld", "why_tests_cant": "Which code is removed and what is left of it in the debug information depends on the linker and on its version.", "anchors": ["src/symbol_graph.rs: process_object_file_bytes", "src/symbol_graph.rs: load_symbols", "src/symbol_graph/dwarf.rs: get_inlined_function", "README.md", "HOW_IT_WORKS.md"]}
{"id": "C144", "title": "Nothing is run before its permissions are granted", "statement": "A build script, or any other program that is built and then run, is run only after what was linked has been analysed with a result of its own, the analysis found no problem, and every API that known packages use in it was granted by a configuration that had been loaded; however compilations, answers of the user and edits of the config file interleave.", "quantifier": "all interleavings of any number of compilations, handler threads, answers and reloads", "why_tests_cant": "The order in which concurrent compilations report and in which the user answers cannot be enumerated.", "anchors": ["src/main.rs: RequestHandler::handle_request", "src/checker.rs: handle_request", "src/proxy/subprocess.rs: proxy_rustc", "FAQ.md"]}
{"id": "C145", "title": "What cannot be read is not passed over", "statement": "If the analysis of a linked binary succeeds, then the binary with all of its sections and all files that were linked, with all of their entries, have been read, and exactly the object files in them were examined. Whatever cannot be read is an error.", "quantifier": "all binaries, libraries, object files and damage to them", "why_tests_cant": "Damage to files has no bound; tests read files that a compiler has written.", "anchors": ["src/symbol_graph.rs: process_file", "src/symbol_graph.rs: load_section", "src/symbol_graph.rs: Filetype::from_filename", "src/symbol_graph.rs: scan_objects", "src/symbol_graph/object_file_path.rs: in_archive", "src/link_info.rs: object_paths_under"]}
{"id": "C146", "title": "The text of a problem tells what the problem is", "statement": "Two problems that are shown with the same text are the same kind of problem, about the same package (and the same version if there are several), the same API, scope, build instruction or table of the config file. The long text of a run without user interaction also tells all places of unsafe code and all unused permissions.", "quantifier": "all pairs of problems whose package names are valid and whose API names contain no backquote", "why_tests_cant": "Two texts must differ for any two problems; tests compare a few texts with expected ones.", "anchors": ["src/problem.rs: Display for Problem", "src/crate_index.rs: Display for CrateSel", "src/config/permissions.rs: Display for PermSel", "src/location.rs: Display for SourceLocation"]}
{"id": "C147", "title": "The report does not depend on the order in which uses were found", "statement": "The report of the uses of an API is the same in whatever order the uses were found, although the analysis goes through hash maps.", "quantifier": "all lists of uses and all orders of them", "why_tests_cant": "There are more orders than can be tried, and a run of a test sees one of them.", "anchors": ["src/problem.rs: display_usages", "src/names.rs: Ord for SymbolOrDebugName", "src/symbol_graph.rs: api_usages"]}
{"id": "C148", "title": "The help says what the keys do", "statement": "On every screen of the full-screen user interface the help lists the keys that do something there, and each of them does what the help says: it opens the named list, moves to the previous or next row, applies the highlighted edit, goes back, or shows an error and leaves everything as it was.", "quantifier": "all executions of the user interface, all screens and all keys", "why_tests_cant": "The texts and the code of the keys are in different functions that nothing keeps in step; a test presses a few keys in a few states.", "anchors": ["src/ui/full_term/problems_ui.rs: render_help", "src/ui/full_term/problems_ui.rs: handle_key"]}
{"id": "C149", "title": "What a report says can be seen on the screen", "statement": "What a run without user interface would report about a problem is also shown in the full-screen user interface: as the row of the problem, as its details, or, for problems about places in the source, in the list of places that the key named in the details opens. For a new version of the config the details say what it changes.", "quantifier": "all problems; all executions of the user interface", "why_tests_cant": "The two texts are produced by different code for eighteen kinds of problem.", "anchors": ["src/ui/full_term/problems_ui.rs: problem_details", "src/ui/full_term/problems_ui.rs: render_details", "src/problem.rs: Display for Problem", "src/config/versions.rs: VERSIONS"]}
{"id": "C150", "title": "Rows of the list of places can be told apart", "statement": "In the list of the places of a problem (unsafe code, extern blocks, uses of an API) places that look the same are the same place; a file of the package is shown by its path within the package.", "quantifier": "all problems, places and package directories", "why_tests_cant": "The shown text drops the directory and the column; whether two places can get the same text depends on all pairs of paths.", "anchors": ["src/ui/full_term/problems_ui.rs: DisplayUsage::list_display"]}
{"id": "C151", "title": "The details of a package are those of the package", "statement": "The pane with details, and the tree of packages, are about the package that the selected problem names; its lines give the version and the directory of this package.", "quantifier": "all problems, packages and descriptions", "why_tests_cant": "The description is written by the author of the package; tests use harmless ones.", "anchors": ["src/problem.rs: Problem::pkg_id", "src/ui/full_term/problems_ui.rs: render_package_details, package_tree_text, current_package_id"]}
{"id": "C152", "title": "The printed diff shows what an edit changes", "statement": "In the line-based user interface the diff of an edit shows every removed and every added line, with its sign and in order, and of the other lines exactly those at most two lines from a change; together with the current file it says what the file is going to be.", "quantifier": "all results of comparing two files", "why_tests_cant": "Whether context lines are lost, repeated or cut off depends on the distances between changes.", "anchors": ["src/ui/basic_term.rs: show_diff"]}
{"id": "C153", "title": "Accepting updates reaches the newest version of the configuration", "statement": "A message about a newer version appears if and only if the configuration does not have the newest one, it names the next version, and whichever of the two edits is accepted in each run, the newest version is reached after as many runs as there are newer versions, with a configuration that is accepted.", "quantifier": "all accepted configuration files, all choices of edits", "why_tests_cant": "Quantifies over all configuration files and sequences of answers.", "anchors": ["src/checker.rs: check_for_new_config_version", "src/config/versions.rs: Version::apply", "src/config_editor.rs: fixes_for_problem"]}
{"id": "C154", "title": "Bubblewrap is selected only if it works", "statement": "Bubblewrap is accepted as the kind of sandbox only if bwrap works; without it, the first configuration written by the line-based user interface disables the sandbox and this is said.", "quantifier": "all results of running bwrap", "why_tests_cant": "Tests run on one machine, where bwrap either works or does not.", "anchors": ["src/sandbox.rs: available_kind, verify_kind", "src/sandbox/bubblewrap.rs: has_bwrap", "src/ui/basic_term.rs: create_initial_config"]}
{"id": "C155", "title": "Options do what the help says", "statement": "Without a user interface that asks, --auto-accept-fixes accepts fixes until none is left and --fail-on-warnings makes every problem an error; the user is asked exactly if --ui names an interface, or nothing is said and the output is a terminal, and --no-ui is not given; --quiet leaves out all that is printed except problems and errors.", "quantifier": "all options, terminals, histories of problems and configuration files", "why_tests_cant": "The options interact with each other, with the terminal and with the command; tests use a few combinations.", "anchors": ["src/ui.rs: start_ui, ui_kind, should_capture_cargo_output", "src/ui/null_ui.rs: NullUi::run", "src/main.rs: Args, run_and_report_errors"]}
{"id": "C156", "title": "A run that fails says why", "statement": "Without a user interface that asks, a run with a failing exit status has printed an error: a problem as an error, an error of cargo or of cackle, an error of the user interface or one of the configuration file; and every problem that makes the run fail is printed.", "quantifier": "all runs, options and histories of problems", "why_tests_cant": "Quantifies over all ways in which the parts of a run can end.", "anchors": ["src/main.rs: run_and_report_errors, print_summary", "src/ui/null_ui.rs: NullUi::run"]}
{"id": "C157", "title": "Pop-ups show all of their text", "statement": "A pop-up of the full-screen user interface shows all of its text if the terminal has enough rows and columns for it: the question about accepting edits automatically, the help and the comment.", "quantifier": "all sizes of terminals and all texts", "why_tests_cant": "Tests render one size.", "anchors": ["src/ui/full_term.rs: centre_area, centre", "src/ui/full_term/problems_ui.rs: render_message, render_auto_accept, render_help, render_comment_input"]}
{"id": "C158", "title": "A sandbox configuration that is said to make no sense has no effect", "statement": "If the user is told that the sandbox configuration of a section does not make sense, removing the kind of sandbox from the section changes for no program the sandbox in which it is run.", "quantifier": "all configurations, package indexes, sections and programs", "why_tests_cant": "Quantifies over pairs of configurations and over all programs that cackle may run; a test compares one pair.", "anchors": ["src/checker.rs: check_unused", "src/config/permissions.rs: apply_inheritance, sandbox_config_for_package", "src/problem.rs: UnusedSandboxConfiguration"]}
{"id": "C159", "title": "A section that is said to be unused has no effect", "statement": "If the user is told that a section of the configuration is unused, removing it changes no permission and no sandbox of anything that can be built.", "quantifier": "all workspaces, configurations and sections", "why_tests_cant": "Quantifies over all metadata and pairs of configurations.", "anchors": ["src/checker.rs: check_unused", "src/crate_index.rs: add_permission_selectors", "src/config_editor.rs: RemoveUnusedPkgConfig"]}
{"id": "C160", "title": "Permissions that are said to be unused can be removed", "statement": "After a run in which every use of an API was permitted, removing all permissions that are said to be unused causes no problem in the next run if the same uses are seen and the configuration permitted them before the removal.", "quantifier": "all histories of loading configurations and checking uses", "why_tests_cant": "Quantifies over all orders of uses and edits within a run; a test performs one.", "anchors": ["src/checker.rs: api_used, update_config, check_unused", "src/config_editor.rs: RemoveUnusedAllowApis"]}
{"id": "C161", "title": "A package that is called a non-dependency is not a dependency", "statement": "If a report says that a package uses an API from a non-dependency, the package named is neither the using package itself nor among its normal, development or build dependencies or theirs.", "quantifier": "all dependency graphs, workspaces, configurations and binaries", "why_tests_cant": "Quantifies over all dependency graphs and binaries; the tests have one graph without development dependencies.", "anchors": ["src/checker.rs: api_used", "src/crate_index/lib_tree.rs: build", "src/symbol_graph.rs: process_reference", "src/problem.rs: OffTreeApiUsage"]}
{"id": "C162", "title": "When an error is shown nothing has been accepted", "statement": "In the full-screen user interface an error appears only for a reason that can be named (no edits, no usages, no backtrace, comment unsupported, an edit that cannot be applied or saved), and then the key or event that led to it has neither changed the config file nor settled a problem.", "quantifier": "all executions, configurations, files and keys", "why_tests_cant": "Quantifies over all histories of keys, reports and changes of the file; the user interface has no tests for failures.", "anchors": ["src/ui/full_term.rs: run", "src/ui/full_term/problems_ui.rs: handle_key, apply_selected_edit, accept_all_single_edits, problems_added"]}
{"id": "C163", "title": "The user interface has the terminal from the first problem until the end of the run", "statement": "The full-screen user interface takes over the terminal exactly when it is told about problems, ends exactly when it is told that the run is over, draws nothing before, and before and after that keys and events have no effect.", "quantifier": "all executions", "why_tests_cant": "Quantifies over all orders of events, keys and reports.", "anchors": ["src/ui/full_term.rs: run"]}
{"id": "C164", "title": "What cackle relies on cannot be changed by sandboxed programs", "statement": "A program that runs in a sandbox (a build script, a test, or rustc with procedural macros) can change neither the configuration that the wrappers read nor programs in the target directory that were checked and are going to be run, except in directories that the user has made writable, in its own OUT_DIR, and where this run of rustc was told to write.", "quantifier": "all environments, configurations, paths, command lines and programs", "why_tests_cant": "Quantifies over all configurations and locations of the directories; the tests run a few programs in one fixed layout.", "anchors": ["src/sandbox.rs: from_config, for_rustc, for_perm_sel, RustcSandboxInputs::from_env", "src/sandbox/bubblewrap.rs: command", "src/proxy.rs: invoke_cargo_build", "src/config.rs: flattened_config_path"]}
{"id": "C165", "title": "A sandboxed build script or test cannot reach the main process", "statement": "Inside the sandbox of a build script or test none of the variables of cackle is set, unless the user passes it on, and the socket of the main process is not visible, unless it lies in a directory bound on purpose.", "quantifier": "all environments, configurations, paths and programs", "why_tests_cant": "Quantifies over all locations of the temporary directory; the tests use one below /tmp.", "anchors": ["src/sandbox.rs: from_config, is_cargo_env, for_perm_sel", "src/proxy.rs: invoke_cargo_build", "src/tmpdir.rs"]}
{"id": "C166", "title": "The source scan reads a file as the compiler does", "statement": "When the rustc wrapper reports success for a crate that may not use unsafe (or extern), the code that the compiler compiled from the source files contains no such use; in particular what the compiler ignores of a file (a shebang line) cannot hide code from the scan.", "quantifier": "all source texts, lexers, configurations and sequences of attempts", "why_tests_cant": "Quantifies over all source texts; the tests scan a few ordinary files.", "anchors": ["src/unsafe_checker.rs: scan_path, scan_string", "src/extern_checker.rs: scan_path, scan_string", "src/proxy/subprocess.rs: RustcRunner::run"]}
{"id": "C167", "title": "The rustc wrapper ends as rustc and the user say", "statement": "If forbidden unsafe or extern code is found and approved, the crate is compiled again; if it is refused, the wrapper fails; if rustc fails for other reasons, its exit status is passed on; if rustc succeeds and there is nothing forbidden, the wrapper succeeds; if a source file that has to be checked cannot be read, it fails.", "quantifier": "all sequences of attempts, configurations, answers, file systems and outputs of rustc", "why_tests_cant": "All combinations of failures and answers over several attempts.", "anchors": ["src/proxy/subprocess.rs: proxy_rustc, RustcRunner::run", "src/outcome.rs: ExitCode::from", "src/unsafe_checker.rs: scan_path"]}
{"id": "C168", "title": "A run in which everything was settled is not refused at its end", "statement": "If every request of all compilations of a run was finally examined without a problem, in whatever order the requests of parallel compilations arrived, however often some of them had to be examined before, and however often the configuration was changed, then the run does not end with the error that there are links that were not examined.", "quantifier": "all interleavings of the requests of all compilations, retries and changes of the configuration", "why_tests_cant": "Quantifies over all interleavings of parallel compilations of crates with the same selector, and over all retries.", "anchors": ["src/checker.rs: check_unused, get_link_info, handle_request, linker_invoked"]}
{"id": "C169", "title": "Accepting that a package provides an API restricts it", "statement": "When cackle reports that a package may provide an API and the user accepts the offered inclusion, all functions in that module of that crate are in the API from then on (apart from those that it excludes); and a package is not reported if that module of its crate is included already.", "quantifier": "all packages, symbols, configuration files and API definitions", "why_tests_cant": "Quantifies over all package names and definitions; it composes the finding in the program, the offered edit, the saved file and the classification.", "anchors": ["src/symbol_graph.rs: find_possible_exports", "src/problem.rs: PossibleExportedApi::api_path", "src/config_editor.rs: fixes_for_problem, ExtendApi", "src/checker.rs: possible_exported_api_problems"]}
{"id": "C170", "title": "The source scan reads a file as the compiler does in each edition", "statement": "When the rustc wrapper reports success for a crate that may not use unsafe (or extern), no source file contains such a use in the tokens that the compiler reads in the edition of the crate.", "quantifier": "all source texts, editions, lexers that can be restarted after a token, configurations and sequences of attempts", "why_tests_cant": "Quantifies over all source texts and editions; the tests scan a few ordinary texts and know no editions.", "anchors": ["src/unsafe_checker.rs: scan_string", "src/extern_checker.rs: scan_string", "src/proxy/subprocess.rs: RustcRunner::run"]}
{"id": "C171", "title": "Cargo, the compiler and the standard library of a run are of one toolchain", "statement": "The compiler that the rustc wrapper runs, and the sysroot that the analysis takes for the standard library, are those of the toolchain that rustup selects for the project, which is that of the cargo that builds it.", "quantifier": "all selections of toolchains by environment, directories and default, all start directories, values of --path and project directories", "why_tests_cant": "Depends on rustup's selection for two different directories; the tests run in one directory with one toolchain.", "anchors": ["src/proxy.rs: rustup_rustc_path", "src/proxy/subprocess.rs: rustc_path_from_env", "src/proxy/cargo.rs: command", "src/main.rs: determine_sysroot"]}
{"id": "C172", "title": "All files that rustc compiled are scanned, whatever the command line", "statement": "When the rustc wrapper reports success for a crate that may not use unsafe (or extern), none of the source files that rustc, run with the given command line, compiled and listed uses it.", "quantifier": "all command lines, ways of writing options, source files, configurations and sequences of attempts", "why_tests_cant": "Quantifies over all command lines, including flags that users add; the tests use a few short ones and never compile.", "anchors": ["src/deps.rs: deps_path_from_rustc_args", "src/deps.rs: source_files_from_rustc_args", "src/proxy/subprocess.rs: RustcRunner::run"]}
{"id": "C173", "title": "Cargo is run with the settings that are in force", "statement": "The flags, features and profile with which earlier results are removed and the project is built are those of the configuration that is in force when the build begins; no edit that is offered changes them.", "quantifier": "all contents of the config file at all times at which it is read, all sequences of offered edits", "why_tests_cant": "Depends on when the file is read and changed during a run; the tests apply single edits and never start cargo with them.", "anchors": ["src/main.rs: Cackle::run", "src/main.rs: RequestHandler::handle_request", "src/config_editor.rs: Edit::apply"]}
{"id": "C174", "title": "Comments stay with what they are about", "statement": "After an edit every comment in the config file is about the same value or setting as before, as a person reads the file; a comment entered for the edit is about what was added; comments never change what the file means.", "quantifier": "all lists and tables with all placements of comments, all values and entered comments", "why_tests_cant": "The placement of comments is free text; the tests for edits use files without comments.", "anchors": ["src/config_editor.rs: add_to_array", "src/config_editor.rs: create_string", "src/config_editor.rs: set_table_value", "src/config_editor.rs: RemoveUnusedAllowApis::apply", "src/ui/full_term/problems_ui.rs: current_edit_supports_comments"]}
{"id": "C175", "title": "The code of a package counts as its own, by whichever name a source file is included", "statement": "If rustc compiled a package from a source file and the wrapper said so, then code at places in this file counts as the package's, whatever name the file has in the debug information.", "quantifier": "all file systems with links, all layouts of packages, all names of files, all histories of requests", "why_tests_cant": "Names with .. and links are only made by unusual includes; the tests have none.", "anchors": ["src/checker.rs: opt_pkg_ids_from_source_path, is_in_rust_std, record_crate_paths", "src/crate_index.rs: package_id_for_path", "src/deps.rs: source_files_from_rustc_args", "src/symbol_graph/dwarf.rs: source_location, CallLocation::location", "src/symbol_graph.rs: process_reference"]}
{"id": "C176", "title": "Saving the config file changes that file and no other", "statement": "When an accepted edit is saved, the config file has the new contents and the mode it had, by whichever of its names (links) it is opened, and no other file is changed or removed.", "quantifier": "all file systems with symbolic links, hard links and modes, all names of the config file, all contents", "why_tests_cant": "Tests save to a fresh directory with one ordinary file.", "anchors": ["src/fs.rs: write_atomic", "src/config_editor.rs: ConfigEditor::write", "src/ui/full_term/problems_ui.rs: apply_selected_edit"]}
{"id": "C177", "title": "What cargo builds is in the directory in which cackle looks for it", "statement": "The directory into which cargo, run by cackle, puts object files is the target directory below which cackle looks for the object files that it scans.", "quantifier": "all environments, options and configurations of cackle and of cargo, versions of cargo with and without build.build-dir, all directories", "why_tests_cant": "Tests run one version of cargo in a workspace without special settings.", "anchors": ["src/main.rs: Cackle::new", "src/proxy/cargo.rs: command", "src/proxy.rs: invoke_cargo_build", "src/link_info.rs: object_paths_under", "src/checker.rs: check_linker_invocation"]}
{"id": "C178", "title": "Everything that a build makes for use as it is has been analysed", "statement": "After a successful run, every executable, dynamic library, procedural macro and static library that a run of rustc in the build has made has been analysed by cackle, and the last analysis found nothing.", "quantifier": "all sets of runs of rustc with arguments as written by cargo, all crate types, all schedules of requests, all programs", "why_tests_cant": "Tests build packages of a few crate types; none of them is a static library.", "anchors": ["src/proxy/subprocess.rs: RustcRunner::get_command, proxy_linker, handle_wrapped_binaries", "src/link_info.rs: LinkInfo::from_env", "src/checker.rs: handle_request, check_unused", "src/proxy.rs: invoke_cargo_build"]}
{"id": "C179", "title": "Packages are compiled only through cackle", "statement": "Whatever cargo starts during a build, a run or tests in order to compile code of packages is cackle, in its role as a wrapper of the compiler, whatever wrappers and compilers the user has configured.", "quantifier": "all environments, config files of cargo, options of the user and configurations; all crates that are compiled; all libraries with examples in documentation", "why_tests_cant": "Tests build with default settings of cargo; none runs examples in documentation.", "anchors": ["src/proxy.rs: invoke_cargo_build", "src/proxy/cargo.rs: command", "src/proxy/subprocess.rs: handle_wrapped_binaries, is_path_to_rustc", "src/link_info.rs: LinkInfo::from_env"]}
{"id": "C180", "title": "Procedural macros cannot hide what is linked by making requests", "statement": "Whatever requests programs other than cackle's own processes send to the main process, a successful build has had every file that was really linked analysed and passed.", "quantifier": "all sequences and interleavings of requests, all choices of which of them are made by cackle's own processes; all configurations loaded in between", "why_tests_cant": "No test connects to the socket from a procedural macro; what matters is the order in which forged and real requests are handled.", "anchors": ["src/checker.rs: handle_request, rustc_complete, linker_invoked", "src/proxy/subprocess.rs: proxy_rustc, RustcRunner::run", "src/proxy/rpc.rs: RpcClient"]}
{"id": "C181", "title": "The message about an invalid configuration lists all problems", "statement": "If a configuration is rejected by validation, the error message names the config file on its first line, followed by a line for each thing that is wrong with it, and for nothing else; sections are named as in the file.", "quantifier": "all configurations, all orders in which a hash map yields the packages", "why_tests_cant": "Tests look for single errors; no test has two problems in one file or nested sections.", "anchors": ["src/config_validation.rs: InvalidConfig::fmt, validate", "src/config/permissions.rs: PermSel::fmt"]}
{"id": "C182", "title": "Packages that provide a restricted API are asked about", "statement": "If code from a module directly in the library of a package is linked and the module has the name of a configured API, then the user is asked whether the package provides that API, unless the config file says so already.", "quantifier": "all configurations, packages, names of libraries, binaries and orders of symbols", "why_tests_cant": "Tests have one library whose name is that of its package, with one plain function.", "anchors": ["src/symbol_graph.rs: find_possible_exports", "src/symbol.rs: module_name, crate_name", "src/crate_index.rs: PackageId::crate_name", "src/checker.rs: possible_exported_api_problems"]}
{"id": "C183", "title": "Accepting edits keeps the rest of the config file", "statement": "If there is a config file and the full terminal user interface changes it, then the new text is what was in the file with the accepted edits applied; the file is never replaced by the edits alone.", "quantifier": "all contents of the file, all problems and edits, all interleavings of keys, reports and changes of the file by others", "why_tests_cant": "Tests apply edits to strings; none has a config file that cannot be read.", "anchors": ["src/config_editor.rs: ConfigEditor::from_file", "src/ui/full_term/problems_ui.rs: apply_selected_edit, accept_all_single_edits, write_config"]}
{"id": "C184", "title": "The first config file does not replace another one", "statement": "With the line-based user interface, a config file that is there and can be read is changed only by applying a fix that the user chose to it; in particular it is never replaced by the initial configuration.", "quantifier": "all problems, answers, fixes and interleavings with changes of the file by others", "why_tests_cant": "Tests do not drive the prompts, let alone change the file while a question is being asked.", "anchors": ["src/ui/basic_term.rs: create_initial_config, prompt_for_fix", "src/main.rs: maybe_create_config"]}
{"id": "C185", "title": "The dependency tree is read completely or the run fails", "statement": "If the output of cargo tree is read without an error, then cargo tree succeeded, and every line of its output but the empty ones was understood: its level is a number, its package is known in that version, and the crate is in the resulting tree.", "quantifier": "all outputs of cargo tree, all ways in which it can end, all indexes of packages", "why_tests_cant": "Tests read one well-formed output of a command that succeeds.", "anchors": ["src/crate_index/lib_tree.rs: LibTree::from_workspace, build, process_line"]}
{"id": "C186", "title": "A list of edits that the user opens has an edit", "statement": "If the user presses f in the list of problems or in the list of places of a problem, then either an error is shown, or the list of edits of the selected problem is opened and it has at least one edit.", "quantifier": "all problems and configurations, all interleavings of keys, reports, reloads and changes of the config file", "why_tests_cant": "Tests do not press keys; the list of places relies on a relation between two functions (every problem with places has an edit) and on the selected problem staying the same.", "anchors": ["src/ui/full_term/problems_ui.rs: handle_key, enter_edit_mode, enter_usage_mode, usages_for_problem", "src/config_editor.rs: fixes_for_problem"]}
