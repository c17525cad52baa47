# Formal model of cackle: design

Lean 4 (4.33.0) project in `lean/`. Build with `lake build` in `/verif/lean`. No Mathlib module is imported.

## Trusted base

* Lean's kernel. Every theorem named in MANIFEST.json depends on at most the axioms `propext`,
  `Classical.choice` and `Quot.sound`; `lean/Verif/Audit.lean` prints them during the build.
  No own axioms, no `sorry`, no `native_decide`, no `bv_decide`.
* The correspondence between the Lean definitions and the Rust text in `/repo`. Each definition cites
  file and lines; every simplification is stated in that comment or in the header of its file.
* The models of programs outside the repository, used as specifications:
  * what `bwrap` does with its arguments (`Props/SandboxSpec.lean`: later mounts hide earlier ones; what is
    visible and what is writable under a path; symbolic links below bound directories are not modelled);
  * which lines of a build script's output cargo acts on, and which variables it sets for rustc
    (`Props/BuildScript.lean`, `Props/EnvVars.lean`);
  * how rustc writes dep-info files, where it writes them, and which spellings of `-C` options it accepts
    (`Props/Deps.lean`, `Props/DepsPath.lean`, `Props/Rustc.lean`);
  * the tokeniser (`Model/Lexer.lean`, simplified: only what decides where comments and literals end);
  * both ways in which rustc mangles plain paths (`Props/Demangle.lean`);
  * reading a TOML document with serde (`Model/Toml.lean`: a tree of tables; unknown keys are rejected; formatting
    has no meaning; printing and parsing a tree gives it back);
  * the part of bash that the wrapper script uses (`Props/LinkSpec.lean`), and response files of the linker;
  * what cargo and the programs that it runs may do while the build is served: connect, write, hang up, end; cargo ends successfully only if the programs it needs did (`Props/ServerSpec.lean`);
  * how cargo reads its arguments, which directories it uses and cleans, and how profiles are resolved (`Props/CargoSpec.lean`); which option, variable or setting decides where it puts what it builds, and that `build.build-dir` is known since cargo 1.91 (`Props/BuildDir.lean`); which crate types rustc makes by starting a linker (`Props/Products.lean`; crate types given by attributes in the source are left out); which programs cargo starts to compile crates and examples in documentation: compilers behind the wrappers that are set, and `rustdoc`, which has no wrapper (`Props/Compilers.lean`);
  * `serde_json`'s printer and reader and serde's derived representation of types (`Model/Json.lean`, `Model/Messages.lean`);
  * that a paragraph of `ratatui` shows its lines one below the other, wraps long ones and cuts off the rest (`Model/Screen.lean`);
  * the file system for atomic writes (`Model/Fs.lean`: path to contents, `rename` is atomic).
* Trusted for C174: to which value `toml_edit` counts the text between two values (stated at the head of `Model/Comments.lean`). The source of that crate is not available here.
* Not modelled (trusted): decoding of ELF and DWARF (`gimli`, `object`; `Model/Dwarf.lean` starts from decoded entries), terminal drawing, the text input widget (`tui_input`), cargo, rustc, the kernel.
  A hash map is an association list with distinct keys; where iteration order matters the theorems quantify
  over all orders. Threads: a concurrent handler is a transition system with one step per critical section of
  the mutex that protects the checker.

## Not covered

* Drawing (`ui/full_term.rs` 114-127, 177-202, 225-228, the `render_*` functions of `problems_ui.rs` except for the list, source code, diffs, details, package details, help and pop-ups, the prompts of `ui/basic_term.rs`), `logging.rs`, `timing.rs`, `colour.rs`, `tmpdir.rs`.
* `events.rs`. How rustup selects a toolchain (specification of C171).
* What `object`, `ar`, `gimli` and `addr2line` make of bytes. `Model/ReadFiles.lean` and `Model/SymbolGraph.lean` start from the
  entries, symbols, sections, relocations and debug names that those libraries give.

## Conventions

* Panics, `bail!` and internal errors are explicit values (`none`, or a constructor). Loops are structural or have
  fuel, and then "fuel runs out" is a separate value that is proved not to occur or is the claim itself.
* Text is a list of characters (`Str`). Where the code works on bytes, the file says so.
* Where the code does not have a property, `Cxx_Claim : Prop` states it in full, a theorem refutes it with a concrete
  witness, and a theorem with suffix `_partial` proves the part that holds.
* Each property theorem is followed by `example`s that show a case that meets its hypotheses.
* `seeded/LOG.jsonl` records wrong programs tried against the theorems. Entries with an empty `failed` list were
  answered by the theorem named under `tightened` or by a later entry whose edit says "(again …)".

## Layout

| model | contents |
|-------|----------|
| `Model/ApiMap.lean` | Model of `src/checker/api_map.rs` and the API part of `Checker::update_config` |
| `Model/Backtrace.lean` | Model of `symbol_graph/backtrace.rs`: the search for a call chain |
| `Model/Basic.lean` | Shared vocabulary of the model |
| `Model/BasicTerm.lean` | Model of `src/ui/basic_term.rs`: the line-based user interface |
| `Model/BinProxy.lean` | Model of `proxy_binary` (`src/proxy/subprocess.rs`): running a wrapped build script, test or other binary |
| `Model/BuildScript.lean` | Model of `src/build_script_checker.rs` and of the edits offered for build instructions |
| `Model/BuiltIn.lean` | Model of `src/config/built_in.rs` |
| `Model/Cargo.lean` | Model of `src/proxy/cargo.rs` and of the commands that `src/proxy.rs` runs |
| `Model/Checker.lean` | Model of `src/checker.rs` |
| `Model/Comments.lean` | Comments in the configuration file |
| `Model/CommonPrefix.lean` | Model of `src/checker/common_prefix.rs` and of the edits offered with it (`src/config_editor.rs`) |
| `Model/Config.lean` | Model of the configuration types and of config loading (`src/config.rs`, `src/config/versions.rs`, `src/config_validation.rs`) |
| `Model/ConfigFile.lean` | Model of how a config file is found and loaded (`src/config.rs`, `src/main.rs`) |
| `Model/CrateIndex.lean` | Model of building the crate index (`CrateIndex::new`, `src/crate_index.rs`) |
| `Model/Demangle.lean` | Model of `src/demangle.rs` |
| `Model/Deps.lean` | Model of `src/deps.rs` |
| `Model/Diff.lean` | Model of `ui/full_term/problems_ui/diff.rs`: the displayed diff of a configuration file |
| `Model/Dwarf.lean` | Model of `src/symbol_graph/dwarf.rs`: names, namespaces and inlined functions in debug info |
| `Model/Editor.lean` | Model of `src/config_editor.rs`: edits of the configuration file |
| `Model/Exports.lean` | Model of the search for exported APIs that are not imported (`src/config.rs`) |
| `Model/Fixes.lean` | Model of `fixes_for_problem` and `trait Edit` (`src/config_editor.rs`) for all problems, with titles |
| `Model/Fs.lean` | Model of `src/fs.rs` |
| `Model/Handlers.lean` | Model of the request handlers (`src/main.rs`) running concurrently over one checker |
| `Model/Help.lean` | Model of the help, the parts of the screen and the details of a problem (`src/ui/full_term/problems_ui.rs`) |
| `Model/Identity.lean` | Model of package identity (`src/crate_index.rs`) and of the environment of the wrappers |
| `Model/Invalid.lean` | Model of the message about an invalid configuration (`src/config_validation.rs`) |
| `Model/Json.lean` | JSON as written and read by `serde_json` (version 1) |
| `Model/Lexer.lean` | A simplified model of the tokeniser (crate `ra_ap_rustc_lexer`, not part of the repository) |
| `Model/LibTree.lean` | Model of `src/crate_index/lib_tree.rs` |
| `Model/Link.lean` | Model of `src/link_info.rs` and of the linker wrapper and the dispatch of wrappers in `src/proxy/subprocess.rs` |
| `Model/Links.lean` | Model of `write_atomic` (`src/fs.rs`) on a file system with links and access modes |
| `Model/Main.lean` | Model of `src/main.rs`: the handler loop with the non-interactive UI, and the phases of a run |
| `Model/Messages.lean` | Requests, answers and the configuration for sub-processes as JSON |
| `Model/Names.lean` | Model of `src/names.rs`: splitting a name into names |
| `Model/NewVersion.lean` | Model of the check for newer versions of the configuration (`src/checker.rs`) |
| `Model/NullUi.lean` | Model of `src/ui/null_ui.rs` |
| `Model/Options.lean` | The choice of the user interface (`src/ui.rs`), and what a run prints (`src/main.rs`, `src/ui/null_ui.rs`) |
| `Model/Output.lean` | Model of passing on cargo's output (`src/proxy.rs`, `src/ui/full_term.rs`, `src/main.rs`) |
| `Model/Path.lean` | Model of `std::path::Path` on Unix |
| `Model/Permissions.lean` | Model of `src/config/permissions.rs` and of the selectors in the crate index |
| `Model/Places.lean` | Model of the rows of the list of usages, the details of a package (`src/ui/full_term/problems_ui.rs`) and the frames of a backtrace |
| `Model/Popup.lean` | Model of the pop-ups (`src/ui/full_term.rs`, `src/ui/full_term/problems_ui.rs`) |
| `Model/Problem.lean` | Model of `src/problem.rs` |
| `Model/ProblemsUi.lean` | Model of `src/ui/full_term.rs` and `src/ui/full_term/problems_ui.rs`: the full-screen user interface |
| `Model/ReadFiles.lean` | Model of how binaries and object files are read (`src/symbol_graph.rs`) |
| `Model/Report.lean` | Model of the text of a problem: `Display` in `src/problem.rs`, `src/location.rs`, `src/crate_index.rs` and `src/names.rs` |
| `Model/Rustc.lean` | Model of the rustc wrapper (`src/proxy/subprocess.rs`) |
| `Model/RustcErrors.lean` | Model of `src/proxy/errors.rs`: finding lint errors in the messages of rustc |
| `Model/Sandbox.lean` | Model of `src/sandbox.rs` and `src/sandbox/bubblewrap.rs` |
| `Model/Scan.lean` | Model of `src/unsafe_checker.rs` and `src/extern_checker.rs` |
| `Model/Screen.lean` | Model of what `src/ui/full_term/problems_ui.rs` draws |
| `Model/Server.lean` | Model of the loop that runs cargo and serves requests (`src/proxy.rs`) |
| `Model/Settings.lean` | Model of which settings of the config file are used when (`src/main.rs`) |
| `Model/ShowDiff.lean` | Model of `show_diff` in `src/ui/basic_term.rs` and of the question which sandbox is available (`src/sandbox.rs`) |
| `Model/Shown.lean` | Model of how the command for a sandbox is shown (`CommandDisplay` of `src/sandbox/bubblewrap.rs`) |
| `Model/Std.lean` | Model of how cackle finds out where the Rust distribution is (`src/main.rs`, `src/checker.rs`) |
| `Model/Store.lean` | Model of `src/problem_store.rs` |
| `Model/Summary.lean` | Model of `src/summary.rs` |
| `Model/SymbolGraph.lean` | Model of `src/symbol_graph.rs`: finding uses of APIs in a linked binary |
| `Model/TmpDir.lean` | Model of where cackle keeps its own files during a run |
| `Model/Toml.lean` | Model of a TOML document and of how serde reads a configuration from it (`src/config.rs`) |
| `Model/Toolchain.lean` | Model of how cackle finds the compiler that it runs (`src/proxy.rs`) |
| `Model/UsageList.lean` | Model of the list of usages of a problem (`src/ui/full_term/problems_ui.rs`) |
| `Model/Validation.lean` | Model of `src/config_validation.rs` |
| `Model/Wire.lean` | Model of the message framing (`src/proxy/rpc.rs`) and of saved requests (`src/main.rs`) |

| lemmas | contents |
|--------|----------|
| `Lemmas/ApiMap.lean` | Lemmas about the trie of API paths |
| `Lemmas/BasicTerm.lean` | Lemmas about the line-based user interface |
| `Lemmas/Cargo.lean` | Lemmas about cargo commands |
| `Lemmas/Checker.lean` | Lemmas about the checker's permission bookkeeping |
| `Lemmas/CrateIndex.lean` | Lemmas about the crate index |
| `Lemmas/DebugNames.lean` | Lemmas about reading names that are not mangled |
| `Lemmas/Demangle.lean` | Lemmas about the demangler: fuel, progress, panics |
| `Lemmas/Dwarf.lean` | Lemmas about `Model/Dwarf.lean` |
| `Lemmas/EditApis.lean` | Lemmas: edits of API definitions, of imports, of `[common]` and removal of sections |
| `Lemmas/EditPerms.lean` | Lemmas: what each edit does to the fields of a section, and to effective permissions |
| `Lemmas/Editor.lean` | Lemmas: how edits of the document change the configuration that is read from it |
| `Lemmas/Fixes.lean` | Lemmas about all offered edits |
| `Lemmas/Json.lean` | Lemmas about JSON: what is written is read back |
| `Lemmas/LegacyTypes.lean` | Types in legacy symbols |
| `Lemmas/Link.lean` | Lemmas about linking and wrappers |
| `Lemmas/Messages.lean` | Lemmas about requests and configurations as JSON |
| `Lemmas/Names.lean` | Lemmas about splitting names: termination, stability, panics |
| `Lemmas/Permissions.lean` | Lemmas about maps and effective permissions |
| `Lemmas/ProblemsUi.lean` | Lemmas about the full-screen user interface |
| `Lemmas/Sandbox.lean` | Lemmas about sandbox command lines |
| `Lemmas/Server.lean` | Invariants of the server |
| `Lemmas/Store.lean` | Invariants of the problem store |
| `Lemmas/SymbolGraph.lean` | Lemmas about `Model/SymbolGraph.lean` |

| properties | contents |
|------------|----------|
| `Props/All.lean` | All property theorems |
| `Props/Answer.lean` | C65: a request is answered with `Continue` only after a clean check |
| `Props/ApiMap.lean` | C01, C02: classification of names by API definitions |
| `Props/Attribution.lean` | C33: the owner of a source path |
| `Props/AutoAccept.lean` | C66 (what auto-accept does), C67 (order of saving and answering) |
| `Props/Backtrace.lean` | C43: backtraces |
| `Props/BasicTerm.lean` | C95 to C100: the line-based user interface |
| `Props/BasicTermSpec.lean` | Specification vocabulary for C95 to C100: the line-based user interface |
| `Props/BinProxy.lean` | C37, C63: running wrapped binaries |
| `Props/BuildDir.lean` | C177: what cargo builds is in the directory in which cackle looks for it |
| `Props/BuildScript.lean` | C17 (disallowed build instructions are reported), C18 (offered patterns), C54 (what cargo acts on) |
| `Props/BuiltIn.lean` | C53: what the built-in `process` API covers |
| `Props/BuiltInTable.lean` | C53: what the built-in APIs cover, for every configuration that imports them |
| `Props/Cache.lean` | C32: skipping symbols known to have no APIs |
| `Props/Cargo.lean` | C105 to C108: how cargo is run |
| `Props/CargoSpec.lean` | Specification vocabulary for C105 to C108: what cargo does with a command |
| `Props/Checker.lean` | C06, C07, C09: what the checker reports |
| `Props/Comments.lean` | C174: comments in the configuration file stay with what they are about |
| `Props/CommonPrefix.lean` | C48, C79: prefixes of names, and the edits of API definitions that are offered with them |
| `Props/Compiled.lean` | C172: the files that rustc compiled are those that are scanned, whatever the command line |
| `Props/Compilers.lean` | C179: packages are compiled only through cackle |
| `Props/Config.lean` | C05, C38, C39, C40: config versions, validation, imports, paths |
| `Props/ConfigFile.lean` | C141: every setting in the config file is in force or refused |
| `Props/CrateIndex.lean` | C115 to C118: from the packages that cargo reports to what is checked |
| `Props/DeadCode.lean` | C143: code that is not in the binary does not count |
| `Props/DebugNames.lean` | C76: names of functions and types in debug information |
| `Props/Demangle.lean` | C27, C28, C29: names of symbols |
| `Props/DemangleV0.lean` | C74, C75: names of symbols in v0 mangling |
| `Props/Deps.lean` | C24: dep-info paths are recovered exactly |
| `Props/DepsPath.lean` | C68: the dep-info file that is read is the one that rustc writes |
| `Props/Diff.lean` | C41, C42: the displayed diff |
| `Props/Dwarf.lean` | C44, C82, C83, C84: what is learnt from debug information |
| `Props/DwarfSpec.lean` | Specification for C44, C82, C83: debug information as trees |
| `Props/Edition.lean` | C170: the source scan reads a file as the compiler does in each edition |
| `Props/Editor.lean` | C19, C20, C46, C64: edits of the configuration file |
| `Props/Edits.lean` | C70, C71, C72, C73, and C05 for documents: edits of API definitions, imports, `[common]`; removals |
| `Props/EndToEnd.lean` | C77, C78: from a reference in the binary to the reported problem |
| `Props/EnvVars.lean` | C35, C62: variables set by build scripts reach the sandboxed rustc |
| `Props/ExportAccepted.lean` | C169: accepting that a package provides an API restricts it |
| `Props/Exports.lean` | C47: possible exports |
| `Props/ExportsAsked.lean` | C182: packages that provide a restricted API are asked about |
| `Props/FileNames.lean` | C175: the code of a package counts as its own, by whichever name a source file is included |
| `Props/FirstFile.lean` | C184: the first config file does not replace another one |
| `Props/FixEffects.lean` | C129: the title determines what the edit does |
| `Props/FixTitles.lean` | C129: the title of an edit says what it does |
| `Props/Fixes.lean` | C128: problems that go away along with an accepted edit |
| `Props/Forged.lean` | C180: requests made by others than cackle's processes |
| `Props/Fs.lean` | C26: config writes are atomic |
| `Props/Handlers.lean` | C08: every linked binary is analysed before a run succeeds |
| `Props/Help.lean` | C148 and C149: the help, the parts of the screen and the details |
| `Props/Identity.lean` | C34, C57: package identity and crate kind in sub-processes |
| `Props/Imports.lean` | C39: importing API definitions |
| `Props/Invalid.lean` | C181: what is said about an invalid configuration |
| `Props/KeptFile.lean` | C183: accepting edits keeps the rest of the config file |
| `Props/LegacyTypes.lean` | C137: no path in a legacy symbol is hidden |
| `Props/Lexer.lean` | C55: the scanner and the compiler see the same tokens |
| `Props/LibTree.lean` | C16, C80: what is learnt from `cargo tree` |
| `Props/Link.lean` | C101 to C104: object files, wrapper scripts and roles |
| `Props/LinkSpec.lean` | Specification vocabulary for C101 to C104: linking and wrappers |
| `Props/Links.lean` | C176: saving the config file changes that file and no other |
| `Props/LookThrough.lean` | C140: uses of an API through the functions in `core::ops::function` |
| `Props/Main.lean` | C14 (requests finish), C15 (meaning of a successful exit status), C51 (cargo clean) |
| `Props/Messages.lean` | Requests, answers and configurations between processes (C119, C120, C121) |
| `Props/NewVersion.lean` | C153: newer versions of the configuration |
| `Props/NullUi.lean` | C13 (decision of the non-interactive UI), C52 (nobody waits forever) |
| `Props/OffTree.lean` | C161 (a package that is called a non-dependency is not a dependency) |
| `Props/OfferedEdits.lean` | C186: a list of edits that the user opens has an edit |
| `Props/Options.lean` | C155 (options do what the help says), C156 (a run that fails says why) |
| `Props/Output.lean` | C131 and C132: cargo's output is passed on, and passing it on does not stop the build |
| `Props/Permissions.lean` | C03, C04, C50: effective permissions |
| `Props/Places.lean` | C150, C151 and parts of C43 and C126: the rows of the list of places, the details of a package, the frames of a backtrace |
| `Props/Popup.lean` | C157: what pop-ups show |
| `Props/ProblemsUi.lean` | C85 to C93: the full-screen user interface |
| `Props/ProblemsUiSpec.lean` | Specification vocabulary for C85 to C92: the full-screen user interface |
| `Props/Products.lean` | C178: which products of a build are analysed |
| `Props/ReadFiles.lean` | C145: what cannot be read is not passed over |
| `Props/Relocations.lean` | C30: the symbols that a relocation refers to |
| `Props/Report.lean` | C123 and C124: what is reported about a problem |
| `Props/ReportOrder.lean` | C147: the report does not depend on the order in which uses were found |
| `Props/ReportText.lean` | C146: the text of a problem tells what the problem is |
| `Props/RootPath.lean` | C142: which project and which config file a run is about |
| `Props/RunBefore.lean` | C144: nothing is run before its permissions are granted |
| `Props/Rustc.lean` | C23, C56: the rustc wrapper |
| `Props/RustcEnd.lean` | C166, C167: what the compiler sees, and how the rustc wrapper ends |
| `Props/RustcErrors.lean` | C138, C139: lint errors of rustc, and when the compilation goes on |
| `Props/Sandbox.lean` | C36, C58, C59, C60, C61: what a sandboxed program can reach |
| `Props/SandboxSpec.lean` | What `bwrap` does with its arguments |
| `Props/SandboxTrust.lean` | C164 and C165: what cackle relies on is out of reach of sandboxed programs |
| `Props/SandboxWarn.lean` | C158 (a sandbox configuration that is said to make no sense has no effect) |
| `Props/SandboxWorks.lean` | C69: what a sandboxed program needs is there |
| `Props/Scan.lean` | C21, C22: the source scanners for `unsafe` and `extern` |
| `Props/Screen.lean` | C125 to C127: what is on the screen |
| `Props/Security.lean` | C122: a build that succeeds uses only permitted APIs |
| `Props/Server.lean` | C109 to C114: running cargo and serving its requests |
| `Props/ServerSpec.lean` | Executions of the server (specification for C109 to C114) |
| `Props/Settings.lean` | C173: cargo is run with the settings that are in force |
| `Props/Settled.lean` | C168: a run in which everything was settled is not refused at its end |
| `Props/Setup.lean` | C130: the set-up of a new configuration |
| `Props/ShowDiff.lean` | C152 and C154: the diff of the line-based user interface, and the sandbox of the first configuration |
| `Props/Shown.lean` | C133: the command that is shown for a failed program is the one that was run |
| `Props/Std.lean` | C134: only the Rust distribution is exempt from the analysis |
| `Props/Store.lean` | C10, C11, C12: the problem store |
| `Props/StoreSpec.lean` | Specification vocabulary for C10, C11, C12 |
| `Props/Summary.lean` | C49, C81: the summary of permissions |
| `Props/SummaryText.lean` | C81: the text of the summary |
| `Props/Toolchain.lean` | C171: cargo, the compiler and the standard library of a run are of one toolchain |
| `Props/TreeRead.lean` | C185: the dependency tree is read completely or the run fails |
| `Props/UiComments.lean` | C136: comments that were entered before can be recalled |
| `Props/UiErrors.lean` | C162: what an error on the screen means |
| `Props/UiLife.lean` | C163: when the full-screen user interface takes over the terminal and when it gives it back |
| `Props/UiReach.lean` | C135: everything can be reached with the keys |
| `Props/UnusedApis.lean` | C160 (permissions that are said to be unused can be removed), and when a section is said to be unused (C159) |
| `Props/UnusedConfig.lean` | C159 (a section that is said to be unused has no effect) |
| `Props/Usages.lean` | C31: reducing usages to the shortest |
| `Props/Wire.lean` | C25: framing round-trips; C45: replay order |

## Properties

| id | title | status | how |
|----|-------|--------|-----|
| C01 | API classification is exactly include-prefix and not exclude-prefix | proved | induction over trie updates; equality with a prefix specification |
| C02 | Loading API definitions never panics and does not depend on table order | proved | corollary of C01 |
| C03 | Permissions inherit exactly along the documented tree | proved | case analysis on scopes over arbitrary maps |
| C04 | The nearest sandbox setting wins and everything in [sandbox] is a default | partial | same, negation witness |
| C05 | Updating the config version while preserving behaviour preserves behaviour | partial | equality of decisions, on parsed configurations and on documents; negation witness |
| C06 | An API use is silent exactly when it is permitted, and otherwise every usage is reported once | proved | partition of usages |
| C07 | Unused-permission warnings are exact with respect to the run's history | partial | invariant over histories |
| C08 | Every linked binary is analysed before a run succeeds | partial | invariant over a concurrent transition system; negation witness |
| C09 | With explicit_build_scripts every unmentioned build script is reported | partial | negation witness, exact condition |
| C10 | A waiter is released exactly once, and only when its problems are settled | proved | store invariants over all histories |
| C100 | Answering all questions lets the build go on | proved | induction on the number of problems; invariant over executions |
| C101 | Every object file in the target directory is scanned | partial | membership over arbitrary disks; negation witnesses |
| C102 | What is run is what was analysed | partial | the script run by a model of bash, composed with the dispatch; negation witness |
| C103 | Originals are kept apart | proved | injectivity of the file name, case analysis |
| C104 | Each process does its own job | proved | case analysis; list induction |
| C105 | The options of the user are in force | partial | composition of views of argument lists; negation witness |
| C106 | Nothing that was built before is reused | partial | views of both commands against directories; negation witnesses |
| C107 | The analysis gets the settings it needs | partial | lookup over arbitrary profiles; negation witnesses |
| C108 | Processes of the build know what they belong to | proved | lookup in the constructed environment; composition with C104 |
| C109 | Success means that every request was approved | partial | invariant over executions, composed with C08, C15 and C65; negation witness |
| C11 | Problem IDs are stable and problems are never lost | proved | store invariants over all histories |
| C110 | Told to stop means stop | partial | measure on the program counter over all executions; negation witness |
| C111 | When the build is over cargo has ended | partial | invariant over executions; negation witness |
| C112 | Every program gets the answer to its own request | proved | invariant over executions |
| C113 | A failed check fails the build with its error | partial | invariants over executions; negation witness |
| C114 | The build is over when cargo is | partial | measure on the program counter over all executions; negation witness |
| C115 | Every proc macro has to be allowed | partial | induction over the packages, composed with C03; negation witness |
| C116 | Whatever is built from a package has its permissions and sandbox | partial | induction over the packages, composed with C03 and C04; negation witness |
| C117 | A file in the directory of a package belongs to that package | proved | induction over the packages, composed with C33 |
| C118 | APIs are imported from the newest version of a package | proved | induction over the packages, sortedness of the list of versions |
| C119 | A request arrives exactly as it was sent | proved | induction over JSON values (printing then reading), characters and UTF-8; composed with C25 |
| C12 | Store operations on live problems never panic | partial | store invariants; negation witness |
| C120 | Sub-processes use the permissions in force | proved | invariant over all sequences of loads; round trip by induction over the permissions |
| C121 | An answer arrives exactly as it was sent | proved | round trip composed with C25 |
| C122 | A build that succeeds uses only permitted APIs | partial | composition of C15, C109, C08 and the completeness of a scan (from C01, C31, C32); second invariant over all executions for where cached scan results come from |
| C123 | The report lists every use | partial | the groups of a BTreeMap are a permutation; induction over the lines for a reader of the text that knows only the indentation |
| C124 | A report says which permission is missing | partial | uniqueness of the decomposition of a text at quotes |
| C125 | The highlighted row is what the keys act on | partial | invariant over all executions: which stacks of screens are possible; then where rows are inserted |
| C126 | The line of a use is shown and marked | partial | arithmetic of the window; induction over tokens |
| C127 | An edit is shown in full before it is accepted | partial | from C41 and C42 |
| C128 | Problems that go away with an edit are settled | partial | an edit that changes nothing leaves the configuration as it is after the edit, for which C19, C64, C70 to C73 say what holds; composition with C89 for the user interface |
| C129 | The title of an edit says what it permits | partial | uniqueness of the decomposition of a title; C19 for what is permitted |
| C13 | Non-interactive mode fails if and only if some problem counts as an error | proved | decision equivalence |
| C130 | The set-up does what was chosen | proved | invariant over the sequence of answers: what was read, and that the needed tables can be reached; C39 for loading |
| C131 | Everything that cargo prints is shown | partial | invariant over all interleavings: shown, buffered, piped and remaining bytes together are the output |
| C132 | Output does not stop the build | partial | invariant of the deadlock; for the rest a rank that decreases with every step, and progress in every state |
| C133 | The command shown for a failed program is the one that was run | partial | unique readability of the escaped text; induction over the reading of the shell |
| C134 | Only the Rust distribution is exempt from the analysis | partial | congruence of the scan over all units; characterisation of the exemption by prefixes |
| C135 | Everything can be reached with the keys | proved | induction over the number of keys pressed; modular arithmetic of the selected index |
| C136 | Comments that were entered before can be recalled | proved | invariant over executions: the history is the list of entered comments without repetitions |
| C137 | No path in a legacy symbol is hidden | partial | induction over the types in a symbol; negation witnesses |
| C138 | Code that the compiler rejects as unsafe is reported with its places | proved | induction over lines of output; decoding of every rendering of a diagnostic |
| C139 | What is permitted is not asked about, and what is permitted or not used compiles | partial | case analysis of a run; induction over the sources; negation witnesses, one of them by induction over the number of runs |
| C14 | Handling a request finishes in non-interactive mode, with the right outcome | partial | non-termination proved for the witness; measure otherwise |
| C140 | Passing a function as a value does not hide its use | partial | induction over chains of references, reduction to C77; induction over the components of a symbol; negation witness |
| C141 | Every setting in the config file is in force or refused | partial | agreement of the tree and the configuration, composed from one lemma per table; negation witnesses |
| C142 | A run is about the project it is started in | partial | induction over the components of the directory; negation witness |
| C143 | Dead code does not count | partial | the origin of every reported use (C78) and the soundness of the walk over the debug information; negation witnesses |
| C144 | Nothing is run before its permissions are granted | partial | invariant over all interleavings of wrappers and handler threads: what is outstanding for a crate is what its running compilation has linked; negation witnesses |
| C145 | What cannot be read is not passed over | partial | induction over files and entries; characterisation of file extensions by their last dot; negation witnesses |
| C146 | The text of a problem tells what the problem is | partial | reading the text back: parts between backquotes, kind from the fixed words; injectivity of decimals and joined lines; negation witness |
| C147 | The report does not depend on the order in which uses were found | partial | strict total orders; sorted grouping is unique; negation witnesses |
| C148 | The help says what the keys do | partial | the shapes of the stack of screens (invariant of C125), then one case per key; negation witness |
| C149 | What a report says can be seen on the screen | proved | one case per kind of problem; C148 for the key |
| C15 | Exit status success means nothing was given up | proved | decision theorem over phase outcomes |
| C150 | Rows of the list of places can be told apart | partial | injectivity of decimal numbers and of joining path components; negation witnesses |
| C151 | The details of a package are those of the package | partial | one case per kind of problem; splitting the text into lines; negation witness |
| C152 | The printed diff shows what an edit changes | partial | invariant of the loop: lines kept for later against a specification that looks ahead; negation witness |
| C153 | Accepting updates reaches the newest version of the configuration | partial | induction over the runs; effect of the edits on the document; negation witness |
| C154 | Bubblewrap is selected only if it works | partial | cases of the results of running bwrap; negation witness |
| C155 | Options do what the help says | partial | cases of options and terminal; invariant of the store over all histories for accepting; negation witnesses |
| C156 | A run that fails says why | proved | invariant of the store over all histories; cases of the ends of a run |
| C157 | Pop-ups show all of their text | partial | arithmetic of the layout against the wrapping specification of C102; negation witness |
| C158 | A sandbox configuration that is said to make no sense has no effect | partial | inheritance over scopes by C04; characterisation of the message; negation witness |
| C159 | A section that is said to be unused has no effect | partial | selectors of the index against what can be built; inheritance over scopes; negation witness |
| C16 | Dependency sets computed from `cargo tree` are exact | partial | simulation by induction over the listing |
| C160 | Permissions that are said to be unused can be removed | partial | invariant of the checker over all histories (C06, C07); negation witness |
| C161 | A package that is called a non-dependency is not a dependency | partial | refinement of the dependency tree (C16) composed with the report of a scan (C78); negation witnesses |
| C162 | When an error is shown nothing has been accepted | partial | case analysis of all keys over the invariant of all executions; negation witness |
| C163 | The user interface has the terminal from the first problem until the end of the run | proved | induction over executions |
| C164 | What cackle relies on cannot be changed by sandboxed programs | partial | from the views of all mounts (C59) for all paths; negation witnesses |
| C165 | A sandboxed build script or test cannot reach the main process | partial | from the environment of all options (C36) and a fold over all mounts; negation witness |
| C166 | The source scan reads a file as the compiler does | partial | from C23, and tokens after a prefix; negation witness with a lexer of strings and comments |
| C167 | The rustc wrapper ends as rustc and the user say | partial | case analysis over one attempt from exact results of the scans (C22, C24); negation witness |
| C168 | A run in which everything was settled is not refused at its end | partial | induction over the settled requests with an invariant on the links still to be examined; fairness is kept by interleaving; negation witness |
| C169 | Accepting that a package provides an API restricts it | partial | from C47 (which crate was found), C70 (what the edit adds) and C01 (how names are classified); negation witnesses |
| C17 | Every build instruction that is not permitted is reported | proved | list induction |
| C170 | The source scan reads a file as the compiler does in each edition | partial | from C23, by induction over the tokens as the compiler reads them; negation witnesses with a part of the lexer, proved restartable and lossless |
| C171 | Cargo, the compiler and the standard library of a run are of one toolchain | partial | induction over the directories between the project and the start directory, with C142; negation witness |
| C172 | All files that rustc compiled are scanned, whatever the command line | partial | C23 composed with the reading of command lines of C68; negation witness |
| C173 | Cargo is run with the settings that are in force | partial | invariant of all edits, induction over sequences of edits and loads; negation witnesses |
| C174 | Comments stay with what they are about | partial | reading of the text as a function, induction over elements, refinement to the edit without comments; negation witnesses |
| C175 | The code of a package counts as its own, by whichever name a source file is included | partial | induction over the ways in which files are included, composed with the invariant of C33; negation witnesses |
| C176 | Saving the config file changes that file and no other | partial | invariance of following links under the change of one name; negation witnesses |
| C177 | What cargo builds is in the directory in which cackle looks for it | partial | composition of the command line and environment of C105 and C108 with the search order of cargo; negation witnesses |
| C178 | Everything that a build makes for use as it is has been analysed | partial | composition of C56, C104, C08 and C109 with a specification of rustc's crate types; invariant over all runs without linking; negation witness |
| C179 | Packages are compiled only through cackle | partial | case analysis over the view of cargo's command line by induction, composed with C104; negation witness |
| C18 | Every fix offered for a disallowed build instruction permits that instruction | proved | list induction |
| C180 | Procedural macros cannot hide what is linked by making requests | partial | invariant over executions (each linked file was reported by a request), composed with C08; reachability composes C35 and C69; negation witness |
| C181 | The message about an invalid configuration lists all problems | partial | characterisation of the problems found by induction over the API lists and case analysis over sections, for all permutations; negation witnesses |
| C182 | Packages that provide a restricted API are asked about | partial | composition of C47 (invariant over the symbols) with the mangling relations of C27 and C74; negation witnesses |
| C183 | Accepting edits keeps the rest of the config file | partial | from C86 (invariant over executions of the user interface); negation witness by a run |
| C184 | The first config file does not replace another one | partial | invariant over executions (no problem of the store is a missing config file), with C98; negation witness by a run |
| C185 | The dependency tree is read completely or the run fails | partial | induction over the lines; crates stay in the tree; negation witnesses for all indexes |
| C186 | A list of edits that the user opens has an edit | partial | invariant over executions of the user interface (places are listed only for problems about places); negation witness by a run |
| C19 | Granting an API changes exactly what was asked | proved | edits commute with reading; composition with C03 |
| C20 | Adding to a config list is idempotent, keeps all entries and keeps sorted lists sorted | partial | list induction; negation witness |
| C21 | The source scanner reports every use of unsafe | partial | induction over token lists |
| C22 | The source scanner reports every use of extern | partial | induction over token lists |
| C23 | Compilation succeeds only without forbidden unsafe or extern code | partial | induction on attempts, composed with C24 |
| C24 | Dep-info paths are recovered exactly | partial | round trip with rustc's escaping |
| C25 | RPC framing round-trips | proved | round trip over byte lists |
| C26 | Config and flattened-config writes are atomic | partial | all crash points |
| C27 | Legacy-mangled paths are recovered exactly | partial | token stream of the mangled path; negation witnesses |
| C28 | Name extraction always terminates | partial | termination measure; non-termination proved for the witness |
| C29 | Name extraction never panics | partial | ASCII invariant; negation witnesses |
| C30 | References through anonymous sections are all followed | proved | invariant over a depth-first search |
| C31 | Deduplicating usages never hides an API use | proved | fold invariants |
| C32 | Skipping symbols known to have no APIs does not change results | partial | simulation; negation witness |
| C33 | The owner of a source path is the nearest enclosing package | proved | induction over path components |
| C34 | Sub-processes agree with the main process on package identity | partial | round trips |
| C35 | Environment variables set by build scripts reach the sandboxed rustc | proved | round trips |
| C36 | Network is isolated unless explicitly allowed | proved | command line against the bwrap specification |
| C37 | Running a wrapped binary without a sandbox is transparent and still checked | partial | induction on attempts |
| C38 | A configuration that passes validation is well-formed | proved | decision equivalence |
| C39 | Importing API definitions is faithful | partial | fold invariants |
| C40 | Every relative sandbox path is resolved against the workspace root | partial | structural induction |
| C41 | Trimming a displayed diff never hides a change | proved | layout invariant, loop measure |
| C42 | Every change in a displayed diff is shown under its own section header | partial | fold invariant; negation witnesses |
| C43 | Backtraces are genuine call chains | partial | depth-first search invariant with a closure argument; negation witnesses |
| C44 | Namespaces of functions in debug info are the enclosing scopes | partial | tree induction against the flattened stream; negation witnesses |
| C45 | Replaying saved requests preserves their order | partial | lexicographic order of digit strings |
| C46 | Fixes offered for a failed sandboxed program affect that program | partial |  |
| C47 | Possible exported APIs do not depend on hash order | partial | loop invariant; negation witness |
| C48 | Common-prefix suggestions are exactly the shared prefixes | partial | fold invariant; negation witness |
| C49 | Permission summary matches effective permissions | partial | composition with C03; negation witnesses |
| C50 | Code from a package is always checked against the right scope | proved | direct |
| C51 | A full run starts from a clean build directory | partial |  |
| C52 | Nobody waits forever in non-interactive mode | partial |  |
| C53 | Built-in process API covers the ways of starting a process | partial |  |
| C54 | Every instruction cargo acts on is checked | partial |  |
| C55 | The scanner sees the code the compiler sees | partial |  |
| C56 | The compiler always links through cackle and forbids unsafe unless permitted | partial |  |
| C57 | A crate is treated as a build script exactly if it is one | partial |  |
| C58 | The home directory is hidden from sandboxed programs | proved |  |
| C59 | Writes of sandboxed programs are confined | proved |  |
| C60 | Directories configured as writable are writable in the sandbox | partial |  |
| C61 | Registry credentials are not available to sandboxed programs | partial |  |
| C62 | Every variable cargo sets for rustc because of a build script is available in the sandbox | partial |  |
| C63 | A wrapped binary succeeds only after the main process agreed | proved | induction on attempts |
| C64 | An offered permission fix can be applied and makes its problem disappear | partial |  |
| C65 | A request is answered Continue only after a clean check | proved | invariant over handler steps |
| C66 | Auto-accept applies and saves exactly the first offered edit of each problem | proved |  |
| C67 | Nobody is told to continue before accepted edits are saved | partial |  |
| C68 | The dep-info file that is read is the one that rustc writes | partial |  |
| C69 | What a sandboxed program needs is available in the sandbox | proved |  |
| C70 | Edits of API definitions and imports change exactly what they say | proved | edits commute with reading |
| C71 | Answering a problem about exported APIs makes it disappear | proved | from C70 |
| C72 | Removing unused configuration removes exactly that | proved | edits commute with reading |
| C73 | Switching a built-in API on and off | proved | edits commute with reading; C39 |
| C74 | V0-mangled plain paths are recovered exactly | partial | induction over v0 paths; negation witness |
| C75 | No path in a v0 symbol is hidden | partial | induction over v0 prefixes; negation witnesses |
| C76 | Every path in a debug name is found | partial | induction over type expressions; negation witness |
| C77 | Every use of an API that is not permitted is reported | partial | composition of C01, C03, C06, C30, C31, C32; negation witnesses |
| C78 | Only uses of APIs that are not permitted are reported | partial | the same composition; negation witness |
| C79 | An offered change of an API definition settles the problem | partial | composition of C48, C70; negation witnesses |
| C80 | A crate name leads to a package that provides it | proved | fold invariant |
| C81 | The summary prints what was asked for | partial | case analysis on options, fold invariants; negation witness |
| C82 | Every inlined function is reported with its caller | partial | simulation of the frame stack by enclosing entries; negation witnesses |
| C83 | The backtrace of an inlined function goes on from the enclosing symbol | partial | scan invariant; negation witness |
| C84 | Declarations are recorded with their own name and place | partial | tree induction; negation witness |
| C85 | No key crashes the full-screen user interface | partial | invariant over executions; exact condition; negation witness |
| C86 | The config file is changed only by accepted edits | partial | case analysis over executions with an invariant; negation witness |
| C87 | Nothing is approved after the user has quit | partial | invariant over executions; negation witness |
| C88 | A comment belongs to the edit for which it was entered | partial | case analysis on keys; negation witness |
| C89 | Accepting an edit does exactly what it says | proved | composition with the store's invariant |
| C90 | While there are problems, one is selected | partial | invariant over executions; negation witness |
| C91 | The selection moves only by keys | partial | prefix-preservation lemma about the store; negation witness |
| C92 | Quitting stops the build | partial | invariant over executions; negation witness |
| C93 | The edit that is applied is the one on the screen | partial | induction over executions; negation witness |
| C94 | Only q quits | proved | invariant over executions |
| C95 | The end of the input does not leave anybody waiting | partial | invariant over executions; non-termination proved for the witness |
| C96 | Errors do not end the line-based user interface | partial | exact condition from an invariant; negation witness |
| C97 | An answer does exactly what was shown | proved | round trip of numerals, case analysis |
| C98 | Nothing is approved without the user | proved | invariant over executions |
| C99 | The first config file restricts the APIs that were chosen | partial | edits commute with reading; parity; negation witness |

## Disagreements between code and properties

* **C04, The nearest sandbox setting wins and everything in [sandbox] is a default.** The code does not inherit pass_env: the full claim is refuted by C04_pass_env_not_inherited; kind, network, extra args and writable directories are proved.
* **C05, Updating the config version while preserving behaviour preserves behaviour.** Step to version 2 proved; step to version 3 is refuted (extern permission changes), proved when no package is allowed unsafe without extern.
* **C07, Unused-permission warnings are exact with respect to the run's history.** The claim with respect to the final configuration is refuted (a permission removed during the session is still reported); exact characterisation over the history, and the claim itself when the configuration is not edited, are proved.
* **C08, Every linked binary is analysed before a run succeeds.** Refuted when two link outputs share a crate selector and are handled concurrently, one of them with problems: after they are settled, the scan results of one are used for the other. Proved, for all interleavings, if for each crate all linker invocations are for the same file or no analysis of its binaries found a problem.
* **C09, With explicit_build_scripts every unmentioned build script is reported.** The code never reports a build script of an indexed package (refuted by C09_not_reported); exact condition proved.
* **C101, Every object file in the target directory is scanned.** Refuted: the target directory is not canonicalised but object paths are, so with a symbolic link (or ..) in its path nothing is scanned at all; arguments in response files are not seen. Proved if the path of the target directory is canonical and the argument is on the command line.
* **C102, What is run is what was analysed.** Refuted: paths are put between double quotes in a bash script without escaping. Proved for paths without quotes, dollar signs, back quotes, backslashes and line breaks.
* **C105, The options of the user are in force.** Refuted: packages, target and features are appended after the arguments that are passed on, so after -- they go to the program instead of cargo. Proved if the arguments passed on and the flags have no -- and no option without its value.
* **C106, Nothing that was built before is reused.** Refuted: cargo clean --profile P leaves what was built for a target (--target or cargo's config) in place, so a second run with a target checks hardly anything; likewise if the profile changes between clean and build. Proved without a target. What cargo clean and cargo build do is a specification.
* **C107, The analysis gets the settings it needs.** Refuted: split-debuginfo is given outside of any profile, where it has no effect; settings for single packages are inherited from dev. Proved for the other three settings and packages without settings of their own.
* **C109, Success means that every request was approved.** Refuted for a program that cargo does not wait for: its request is not answered when cargo ends successfully, and the build succeeds. Proved for all programs whose failure makes cargo fail; that these are all is an assumption about cargo. Composed with C65, C08 and C15.
* **C110, Told to stop means stop.** Refuted: while the main thread reads a request that the program does not write, nothing else happens. Proved: four unblocked steps are enough, unless a malformed request ends the loop.
* **C111, When the build is over cargo has ended.** Refuted: a request that cannot be read ends the loop with an error and leaves cargo running. Proved for all other ways to return.
* **C113, A failed check fails the build with its error.** Refuted: the answer is written before the error is sent; if cargo ends in between, only that cargo failed is reported. Proved: the build fails if the program is one that cargo needs; an error that was sent in time is reported; an error that is reported is genuine.
* **C114, The build is over when cargo is.** Refuted as C110: a program that is connected and silent blocks the loop for ever. Proved: five unblocked steps are enough.
* **C115, Every proc macro has to be allowed.** Refuted: two packages with the same name and version from different sources are one entry of the table, so a proc macro can go unreported. Proved if names with versions are distinct.
* **C116, Whatever is built from a package has its permissions and sandbox.** Refuted: benchmarks are built like tests but do not count as tests; for a package with benchmarks only, the global sandbox is not applied. Proved for everything else. Composed with C03 and C04.
* **C12, Store operations on live problems never panic.** Replacing a problem by one with the same deduplication key panics later (refuted); every other history is proved panic free.
* **C122, A build that succeeds uses only permitted APIs.** Refuted in general: a binary that was analysed is not analysed again when the configuration changes during the run (C122_defined_later). Proved with respect to the API definitions in force at the last analysis of the binary, and to all configurations loaded in the run; with the exceptions of C08 and C77.
* **C123, The report lists every use.** Refuted in general: a line break in the name of a source file (chosen by the checked package) makes the report list a use that does not exist (C123_forged_use). Proved for names without line breaks, where files and functions do not start with a blank; reading the text back gives exactly the uses.
* **C124, A report says which permission is missing.** Refuted: the text with details, which runs without user interaction print, omits the scope, so it cannot be told whether the package, its build script or a build script that includes it lacks the permission (C124_scope_not_reported); uses of an API of a package that is no dependency do not mention the scope at all (C124_off_tree_look_alike). Proved for the short text, and for package and API in both.
* **C125, The highlighted row is what the keys act on.** Refuted: when a reload of the config reduces the edits of the selected problem, the highlighted row is another problem and accepting does nothing (C125_another_problem). Proved: whenever the keys act on something, it is highlighted, and a highlighted edit is the one that is accepted.
* **C126, The line of a use is shown and marked.** Refuted: lines are wrapped but counted as one row, so a long line above a use pushes it out of the screen (C126_pushed_out). Proved for the lines that are computed, for lines that fit, and for the highlighted token.
* **C127, An edit is shown in full before it is accepted.** Refuted: a diff with more changes than rows is cut off without any indication (C127_cut_off). Proved: all changes are computed, and they are on the screen as long as any context is.
* **C128, Problems that go away with an edit are settled.** Refuted in general: with config version 2, a problem about extern code disappears although allow_extern does not help there (C128_extern); a failed test disappears when the sandbox of the build script was disabled, although the test runs in the same sandbox (C128_test). Proved for all problems and edits otherwise, also in every execution of the full-screen user interface. Restrictions: used functions have one name only, the API excludes none of the names of the callers, no colons in the parts of names.
* **C129, The title of an edit says what it permits.** Refuted in general: the title names one version of a package, but all versions are permitted to use the API (C129_versions). Proved when no other version is meant; names without quotation marks and brackets. Titles of different edits for one problem always differ; edits with the same title change every configuration in the same way, except the two that remove unused permissions.
* **C131, Everything that cargo prints is shown.** Refuted in general: when cargo fails, invoke_cargo_build returns an error instead of the handle for waiting, so cackle can end before cargo's error messages were passed on (C131_lost; most likely when the full-screen interface was active). Proved when the build succeeds; what is shown is always a beginning of what was printed (C131_prefix).
* **C132, Output does not stop the build.** Refuted in general: the full-screen interface holds the lock of standard error from the first problem until cargo has ended. If cargo prints more than the capacity of a pipe and 64 bytes in that time, it blocks for ever (C132_hangs: inevitable; C132_hang_possible: for every such build). Proved with the basic interface, and with the full-screen one if what is still to come fits in the pipes (C132_only_ui: there is no other reason for a hang). Every run is finite (C132_finite).
* **C133, The command shown for a failed program is the one that was run.** Refuted in general: Debug quotes do not protect $ and backquotes, and arguments with $, ; or newlines but no space are not quoted at all. The description of the package, which its author writes, is among the arguments (C133_runs_command, C133_refuted). Proved for arguments without such characters, for the part of bash that is specified in Props/LinkSpec.lean (history expansion with ! is not). Different commands are always shown differently (C133_distinct).
* **C134, Only the Rust distribution is exempt from the analysis.** Refuted in general: directories below /rust, /rustc and /cargo/registry also count as the distribution, so a project in /rust or dependencies with CARGO_HOME=/cargo are not analysed; and the exit status of rustc --print sysroot is not looked at, so that after a failure everything counts as the distribution. Proved when rustc succeeds and no directory is below these three.
* **C137, No path in a legacy symbol is hidden.** Holds for traits without generic arguments and for generic functions. C137_trait_args and C137_generic_method refute the full claim: in the symbol of <a::T as core::convert::From<std::fs::File>>::from the path std::fs::File is not the beginning of a name, and for std::thread::JoinHandle<T>::join there is no name std::thread::JoinHandle::join.
* **C139, What is permitted is not asked about, and what is permitted or not used compiles.** Holds if rustc succeeds. C139_own_lint refutes the full claim: a crate that has unsafe code and forbids it itself (or has it forbidden by the arguments of cargo) is asked about although unsafe code is permitted. C139_endless: granting the permission then changes nothing, and the question is asked again each time.
* **C14, Handling a request finishes in non-interactive mode, with the right outcome.** Refuted: a possible-exported-API warning is re-reported forever; proved when warnings fail the run or no export is found.
* **C140, Passing a function as a value does not hide its use.** Holds if each object file defines those functions of core::ops::function that it refers to. C140_other_object refutes the full claim: if the function is in another object file, then it is neither followed nor checked itself, and the use of the API is not reported. For symbols with legacy mangling.
* **C141, Every setting in the config file is in force or refused.** For settings that imports and relative paths do not change. C141_documented refutes that everything in CONFIG.md is accepted: the documented kind = "Disable" is refused. C141_unused_setting refutes that every accepted setting has an effect: import in a section of a package is accepted and ignored. Trusted: the TOML parser.
* **C142, A run is about the project it is started in.** The directory is the innermost one with a Cargo.toml, and it is an error exactly if there is none. C142_member and C142_refuted: in a member of a workspace the config file is looked for in the directory of the member, not in the root of the workspace as CONFIG.md says.
* **C143, Dead code does not count.** For linkers that mark removed code with the address 0 or 1. C143_tombstone refutes it for lld, which writes the greatest address: the removed code is reported. C143_no_fallback: without symbols in the binary nothing is found in object files; the documented use of debug information instead does not exist.
* **C144, Nothing is run before its permissions are granted.** If compilations with the same package and kind follow each other and each run of rustc links at most one file. C144_at_the_same_time: of two compilations at the same time one may end successfully although its binary was not looked at. C144_several_files: of two files linked by one run only the first one is looked at. That cargo runs a program only after its compilation has ended successfully is trusted; that the wrapper ends successfully only after being told to continue is C23.
* **C145, What cannot be read is not passed over.** All readable entries of libraries and all other files are examined and errors in them are errors. C145_entry: entries whose header cannot be read are skipped. C145_debug_info: if the debug information of the binary is damaged, it is taken as empty and nothing at all is found. C145_missing: files that cannot be resolved are skipped. C145_parts connects this with C122.
* **C146, The text of a problem tells what the problem is.** Holds for all kinds of problem except that the text for an API of a package that is no dependency does not tell the scope (C146_off_tree). Messages given as text by other parts are left out.
* **C147, The report does not depend on the order in which uses were found.** Holds for files, functions and uses of different functions. C147_same_function: uses in the same function are listed in the order found, which depends on a hash map. C147_spelling: a file whose name is written in two ways is listed under the first one found.
* **C148, The help says what the keys do.** Refuted: in the backtrace, the keys that select a frame and that lead back are not listed (C148_backtrace_keys). Proved for the lists of problems, edits and usages: each listed key does what is said, and keys that are not listed do nothing. Not covered: the left column of the help is five columns wide, so that `space/enter/f` is cut off.
* **C150, Rows of the list of places can be told apart.** Refuted: the column is not shown (C150_refuted), and for uses of an API neither file nor line is (C150_api_refuted). Proved for unsafe code and extern blocks: same row, same line of the same file.
* **C151, The details of a package are those of the package.** Refuted: the description can have several lines, so that it can contain what looks like the lines with the version and the directory (C151_refuted). Proved: the package is the one that the row of the problem names first; the last line gives its directory; without line breaks in the values, the lines are as expected.
* **C152, The printed diff shows what an edit changes.** Refuted: where the changes are is not shown, and two packages with the same permissions give the same diff (C152_refuted). Proved exactly: which lines are shown, and that no change is hidden.
* **C153, Accepting updates reaches the newest version of the configuration.** Refuted: a table common with braces cannot be edited (C153_refuted). Proved for all other files and all choices.
* **C154, Bubblewrap is selected only if it works.** Refuted: a bwrap that can be started but fails is accepted (C154_refuted). Proved: the first configuration, and when a choice is refused.
* **C155, Options do what the help says.** Refuted: both options are ignored at a terminal (C155_auto_accept_ignored, C155_interactive_ignores), --fail-on-warnings is ignored by test and run (C155_fail_on_warnings_ignored), --quiet prints warnings (C155_quiet_warns). Proved: when the user is asked, and what the options do otherwise.
* **C157, Pop-ups show all of their text.** Refuted: on a terminal with fewer than 161 columns the question about accepting automatically does not show how to answer, whatever the number of rows (C157_auto_accept, C157_refuted); the column of keys in the help is cut (C157_help_cut). Proved: texts of which every line fits.
* **C158, A sandbox configuration that is said to make no sense has no effect.** Refuted: a kind of sandbox in the section of a package is said to make no sense but is inherited by its build script and tests (C158_inherited). Proved exactly: when the message appears, and when the removal changes how a program is run.
* **C159, A section that is said to be unused has no effect.** Refuted: the test section of a package that has only benchmarks is said to be unused but holds the permissions of the benchmarks (C159_benchmarks). Proved for all packages without such benchmarks.
* **C16, Dependency sets computed from `cargo tree` are exact.** Exact for all acyclic graphs whose packages have different identities. Refuted: packages of the same name and version from different sources are taken for one, and the dependencies of the one listed first are recorded. Running cargo tree is not modelled (its exit status is not checked by the code).
* **C160, Permissions that are said to be unused can be removed.** Refuted: a permission that is moved to the whole package after the build script was checked is reported as unused (C160_moved_permission). Proved for runs during which the configuration is not edited.
* **C161, A package that is called a non-dependency is not a dependency.** Refuted: `cargo tree` is asked for normal dependencies only, so that a development dependency used by tests is called a non-dependency (C161_dev_dependency); and a package whose name has a hyphen is called a non-dependency of itself (C161_own_code). Proved: it is never a normal dependency, and the package itself only if its crate name differs from its name.
* **C162, When an error is shown nothing has been accepted.** Refuted: when several edits are accepted at once, the problems are settled before the file is written, so that they stay settled if it cannot be written (C162_settled_unsaved). Proved: there is always a reason, the file is unchanged, and without auto-accept no problem is settled.
* **C164, What cackle relies on cannot be changed by sandboxed programs.** Refuted: the whole target directory is writable in the compiler's sandbox, so that a procedural macro can replace a build script after it was checked (C164_target_writable); and the configuration too if the temporary directory lies there (C164_config_in_target). Proved for build scripts and tests, and for rustc and the configuration if the temporary directory is not in the target directory.
* **C165, A sandboxed build script or test cannot reach the main process.** Refuted: with a temporary directory outside the home directory, /var and /tmp the socket is visible (C165_socket_visible). Proved: the variables are never visible, and the socket is hidden for temporary directories in those places.
* **C166, The source scan reads a file as the compiler does.** Refuted: after a first line such as #!/x with a quotation mark the scan takes the code that follows for a string literal, whereas the compiler ignores the line (C166_shebang_hides_code). Proved for files without a shebang line and for those whose shebang line is a sequence of complete tokens. That the compiler ignores such a line is part of the specification, not of the model.
* **C167, The rustc wrapper ends as rustc and the user say.** Refuted for source files with a backslash in their name, about which nobody is asked (C167_backslash, as in C23 and C24). Proved for all others. The scan also reports an unsafe or extern that is the last token of a file in some cases (C22), hence the word Occurs where nothing is to be reported.
* **C168, A run in which everything was settled is not refused at its end.** Refuted for a crate that is linked twice by one rustc (crate types dylib and cdylib, or a linker that rustc calls again with other options after it failed): one completion takes one link only, and the run is refused (C168_linked_twice). Proved for compilations that link at most once, for all interleavings, retries and changes of the configuration.
* **C169, Accepting that a package provides an API restricts it.** Refuted for packages with a hyphen in their name: the offered path begins with the name of the package (my-p::fs) and not of the crate (my_p::fs), so that accepting it makes the report go away and restricts nothing (C169_hyphen), and a package whose module is included under its right name is reported again (C169_included_hyphen). Proved for all other packages.
* **C170, The source scan reads a file as the compiler does in each edition.** Refuted: the lexer library gives the tokens of the newest edition, and the compiler splits some of them again in older editions; cackle does not. Thus code after #" (up to edition 2021), in 'r#unsafe and in cr#"..."# (up to edition 2018) is hidden from the scan. Proved for files without such tokens, and for edition 2024 without condition. How the compiler splits tokens is part of the specification (rereads), not of the model.
* **C171, Cargo, the compiler and the standard library of a run are of one toolchain.** Refuted: rustup is asked for the compiler in the directory in which cackle was started, cargo and rustc --print sysroot are run in the directory of the project. With --path and a toolchain file the compiler can be another one. Proved if RUSTUP_TOOLCHAIN is set (as for cargo acl), and if cackle is started in the project and no toolchain is chosen for a directory between. How rustup selects is part of the specification (Rustup.of), not of the model.
* **C172, All files that rustc compiled are scanned, whatever the command line.** Refuted: with RUSTFLAGS=--emit=asm rustc still lists its source files, but the wrapper takes the last --emit option only and then scans nothing, so that unsafe code without permission is compiled. Proved for command lines in the form that cargo uses whose last --emit option asks for dep-info; and if the place of the list is not told in that form, success is never reported.
* **C173, Cargo is run with the settings that are in force.** Refuted: the configuration for cargo is copied before the questions about unused imports and the last loading, and the profile to clean before all questions; changes that the user makes in the file meanwhile are then in force but not used. Proved if the file is changed by offered edits only: no edit changes these settings (C173_edit).
* **C174, Comments stay with what they are about.** Refuted: a comment behind a list element belongs to the next element for the editor, so adding puts it behind the new element and removing the next element deletes it; a comment behind a setting is lost when the setting is changed, and one above it is replaced by the entered one. Proved for lists whose comments are on lines of their own above the elements, and for all other settings of a table. For all lists and tables: comments change no value and end with their lines; if the comment input opens, the entered comment is written about the added value.
* **C175, The code of a package counts as its own, by whichever name a source file is included.** Refuted: recorded names are canonical, names in debug information are not. A file that is included by an absolute name through the directory of the toolchain counts as nobody's and is not analysed; through the directory of another package (or, also by a relative name, of a package inside this one) it counts as that package's only. Proved for canonical names, and for names relative to the package that do not lead through a package inside it.
* **C176, Saving the config file changes that file and no other.** Refuted: a config file that is a symbolic link is replaced by a file and the file it leads to keeps the old contents, other hard links keep the old contents, the mode becomes that of new files, a file called cackle.tmp is lost, and a link called cackle.tmp is written through and becomes the config file. Proved for an ordinary file of the usual mode if there is no cackle.tmp, and for names ending in .tmp.
* **C177, What cargo builds is in the directory in which cackle looks for it.** Refuted: the directory is set by CARGO_BUILD_BUILD_DIR, which cargo before 1.91 does not know. It then uses the target directory of its own config (build.target-dir, CARGO_BUILD_TARGET_DIR) or of the workspace if cackle was started in a member; no object file is scanned and no API is found. Flags that set build.build-dir have the same effect. Proved for newer versions without such flags, and for older ones if CARGO_TARGET_DIR or nothing is set.
* **C178, Everything that a build makes for use as it is has been analysed.** Refuted: rustc starts no linker for static libraries, so cackle is told nothing about them and does not analyse them. If a build makes only static libraries and libraries for other crates, nothing at all is analysed and the run succeeds (C178_library). Proved for executables, dynamic libraries and procedural macros, if no problems were found in crates that were linked twice (C08). By default cackle passes `--all-targets`, so that a library is also compiled as a test, which is analysed; C178_library applies with other build flags or with `test = false`.
* **C179, Packages are compiled only through cackle.** Refuted: `cargo acl test` without an option that says what to test has the examples in the documentation compiled, linked and run by `rustdoc`, which cargo starts without any wrapper, so that code is neither analysed nor sandboxed (C179_examples). With a wrapper for the workspace or a compiler of another name cackle fails or takes itself for a linker (C179_other_name). Proved for builds, runs and tests that do not include examples, with a compiler called rustc. Cargo's choice of programs is a specification (trusted).
* **C180, Procedural macros cannot hide what is linked by making requests.** Refuted: the socket is writable in the compiler's sandbox and its path is in the environment (C180_reachable), so a procedural macro can report that the crate was linked into another file too; when problems in that file are fixed, its scan results are used for the file that was really linked (C180_forged). Proved for all other forged requests: the file is analysed if no other file of its crate is reported as linked, or no problems were found in that crate.
* **C181, The message about an invalid configuration lists all problems.** Refuted: several problems are written on one line without separators (C181_run_together), and a section `pkg.p.build.from` is reported as `pkg.p.build.dep`, which does not exist (C181_dep). Proved: all problems are described and nothing else is, in any order of the packages (C181_all); with a single problem the message has the lines claimed (C181_partial).
* **C182, Packages that provide a restricted API are asked about.** Refuted: the name of the library is taken to be that of the package with underscores, so packages whose manifest gives the library another name are never asked about (C182_lib); generic functions in the new mangling scheme, methods in further impl blocks and trait methods in the old scheme are not recognised (C182_generic). Proved for plain functions of libraries named like their package, if no other crate has symbols from that package's files in a module of that name (see C47).
* **C183, Accepting edits keeps the rest of the config file.** Refuted: from_file treats a file that cannot be read, for example because it is not UTF-8, as empty, so accepting an edit replaces the whole file by that edit and no error is shown (C183_unreadable, C183_auto_accept_unreadable). Proved for files that can be read at the time. The editor is a parameter, as in C86; how bytes are read is a parameter too.
* **C184, The first config file does not replace another one.** Refuted: whether there is a config file is looked at only before the questions, so one that appears meanwhile is replaced by the initial configuration when the user presses enter (C184_overwritten). Proved if there has been a config file all the time since the start, given that a missing file is reported only if it is missing (main.rs:472-479). For files that cannot be read see C183.
* **C185, The dependency tree is read completely or the run fails.** Refuted: the exit status of cargo tree is not looked at, so that a failure without output gives an empty tree (C185_failed_command); lines with fewer than four fields are skipped (C185_skipped_line). Proved: all lines with at least four fields are understood, the command could be started and its output is UTF-8.
* **C186, A list of edits that the user opens has an edit.** Refuted: whether there is an edit is not looked at in the list of places; after auto-accept was confirmed, a problem before the selected one can be resolved while places are listed, so that another problem becomes the selected one, which may have no edit (C186_empty_list). Proved: as long as auto-accept was not confirmed, with the edits of the real program; every problem about places has an edit (C186_places_have_edits).
* **C20, Adding to a config list is idempotent, keeps all entries and keeps sorted lists sorted.** Refuted: adding to an unsorted list may duplicate a value. Proved: everything else, and no duplicates for sorted lists.
* **C21, The source scanner reports every use of unsafe.** Refuted for the last token of a file; exact condition proved for all token lists.
* **C22, The source scanner reports every use of extern.** Refuted for the last token and for `unsafe extern` followed by crate, ] or ); exact condition proved for all token lists.
* **C23, Compilation succeeds only without forbidden unsafe or extern code.** Refuted: a source path containing a backslash is not scanned because the dependency file is unescaped wrongly; proved for other paths.
* **C24, Dep-info paths are recovered exactly.** Refuted for paths containing a backslash; proved for all other paths.
* **C26, Config and flattened-config writes are atomic.** Refuted for paths whose extension is already `tmp`; proved for all other paths.
* **C27, Legacy-mangled paths are recovered exactly.** Holds for identifiers without a leading underscore other than mut; C27_underscore refutes the full claim: a leading underscore is removed. C27_unicode: an identifier with letters outside of ASCII is cut off.
* **C28, Name extraction always terminates.** Debug names and all v0 symbols: always. Legacy symbols: if every component with escapes has an even number of dollar signs; C28_not_terminating refutes the full claim with an unclosed escape.
* **C29, Name extraction never panics.** ASCII symbols and all debug names never panic; C29_panics and C29_panics_v0 refute the full claim with symbols outside of ASCII. Running out of stack is not modelled.
* **C32, Skipping symbols known to have no APIs does not change results.** Refuted: the cache is kept per symbol, so an inlined function with the same symbol but another debug name is skipped. Proved if debug info names inlined functions as it names their symbols.
* **C34, Sub-processes agree with the main process on package identity.** Refuted for a crate whose name starts with build_script_ compiled with --test: rustc and linker wrappers disagree; everything else is proved.
* **C37, Running a wrapped binary without a sandbox is transparent and still checked.** Refuted twice: without a sandbox arguments are passed twice and build script output is not checked. Proved: sandboxed runs, and transparency for binaries run without arguments.
* **C39, Importing API definitions is faithful.** An import that the package does not export is silently ignored (refuted by C39_missing_export_ignored); the rest is proved.
* **C40, Every relative sandbox path is resolved against the workspace root.** [sandbox], [rustc.sandbox] and from.* sections are not made absolute (refuted); pkg, build and test sections are proved.
* **C42, Every change in a displayed diff is shown under its own section header.** Refuted: the first header after a change is dropped, so a change in the next section is shown below the wrong header; trimming can also cut out the header. Proved if no two successive changes have exactly one header between them. The result of the diff crate is arbitrary.
* **C43, Backtraces are genuine call chains.** The search ends and gives only call chains, for all binaries; a chain is found if there is one and no address is in two functions. Refuted without that: C43_overlap. C43_not_longest refutes the comment in the code that the longest chain is found.
* **C44, Namespaces of functions in debug info are the enclosing scopes.** Exact for functions in namespaces and structures, and for references within a unit. Refuted: a reference to another unit is followed to the right entry, but gets the namespace of whatever is at the same offset of the current unit; functions in enumeration and union types get no namespace.
* **C45, Replaying saved requests preserves their order.** Refuted above 1000 saved requests (three-digit names sort wrongly); proved up to 1000.
* **C46, Fixes offered for a failed sandboxed program affect that program.** Refuted for tests: the edits change the build script's sandbox. Proved for build scripts.
* **C47, Possible exported APIs do not depend on hash order.** Refuted: a pair is marked as seen before the crate name is compared, so a symbol of another crate located in the package (made by a macro) that comes first hides the export; C47_order shows both orders. Proved: what is reported is right and reported once, and it is exact if no such symbol exists.
* **C48, Common-prefix suggestions are exactly the shared prefixes.** Exactly the common prefixes, sorted, one text each. Refuted: two prefixes have the same text if a namespace in debug info contains colons, so there may be duplicates.
* **C49, Permission summary matches effective permissions.** The lists are exact. Refuted: permissions of tests are ignored, so a package counted as having no special permissions may have some; an API named proc_macro... is taken for the proc macro permission. Build instructions and sandbox settings are not part of the summary.
* **C51, A full run starts from a clean build directory.** The exit status of cargo clean is ignored (refuted).
* **C52, Nobody waits forever in non-interactive mode.** Refuted: an error while auto-accepting (e.g. unwritable config) ends the UI thread and later reporters wait forever; proved while the UI thread is alive.
* **C53, Built-in process API covers the ways of starting a process.** The built-in lists std::unix::process instead of std::os::unix::process (refuted); proved for std::process.
* **C54, Every instruction cargo acts on is checked.** Refuted for indented instructions (cargo trims lines, cackle does not); proved for lines without leading white space.
* **C55, The scanner sees the code the compiler sees.** Refuted: a #! line containing /* hides the rest of the file from the scan; proved for files without such a line. The tokeniser is a simplified model.
* **C56, The compiler always links through cackle and forbids unsafe unless permitted.** Refuted: a linker requested as one argument `-Clinker=lld` is dropped; the rest is proved for all argument lists.
* **C57, A crate is treated as a build script exactly if it is one.** Refuted: any crate whose name starts with build_script_ is treated as a build script. Proved for all other names.
* **C60, Directories configured as writable are writable in the sandbox.** Refuted: directories below /run are hidden, and rustc's manifest directory is bound read-only after the writable ones. Proved for binaries with directories not below those.
* **C61, Registry credentials are not available to sandboxed programs.** Refuted: CARGO_REGISTRY_TOKEN is passed, and a cargo home outside the home directory is visible. Proved: the credentials file in the default place is hidden.
* **C62, Every variable cargo sets for rustc because of a build script is available in the sandbox.** Refuted for the cargo:: spelling, proved for the cargo: spelling.
* **C64, An offered permission fix can be applied and makes its problem disappear.** Refuted: allow_extern has no effect before version 3, and inline tables cannot be edited. Proved otherwise.
* **C67, Nobody is told to continue before accepted edits are saved.** Refuted: problems are resolved, which releases waiters, before the file is written, and writing may fail. Proved: if the file cannot even be opened, nobody is released.
* **C68, The dep-info file that is read is the one that rustc writes.** Refuted: a second --emit option or a joined -Cextra-filename= is misread. Proved for command lines in the form cargo uses.
* **C74, V0-mangled plain paths are recovered exactly.** Holds unless an identifier has the form of a legacy hash; C74_hash refutes the full claim.
* **C75, No path in a v0 symbol is hidden.** The item's own path always begins the first name; C75_generic_args refutes the claim for generic arguments, the others show closures and inherent implementations that lose their names.
* **C76, Every path in a debug name is found.** Holds if the generic arguments of the trait in a trait implementation do not begin with a path or contain another trait implementation; C76_trait_args refutes the full claim, C76_nested shows a nested name that is lost, C76_keywords a keyword that becomes part of a name, C76_hash that a function called like a hash is left out.
* **C77, Every use of an API that is not permitted is reported.** Refuted twice: of several uses at one place only the one with the shortest name is checked, and that one may be ignored because it names a package that is not a dependency (C77_off_tree); and the cache hides names (C77_other_name). Proved for all other cases.
* **C78, Only uses of APIs that are not permitted are reported.** Refuted: the cache can hide that the referring function is itself part of the API. Proved if debug info names inlined functions as it names their symbols.
* **C79, An offered change of an API definition settles the problem.** Refuted: an exclusion may be offered for another name of the used function (a generic argument), and an inclusion although the path is below an excluded one. Proved if used functions have one name, and if nothing is excluded.
* **C81, The summary prints what was asked for.** Proved for text output. Refuted for JSON: the packages by permission are stored under the name of the impure proc macros and are replaced by them; what is stored as counts are the permissions.
* **C82, Every inlined function is reported with its caller.** Proved in both directions for code with a low end in self-contained units whose functions are not defined apart from their declarations. Refuted otherwise: inlined code in several ranges is not reported, nor is what is inlined into a function that is described by DW_AT_specification.
* **C83, The backtrace of an inlined function goes on from the enclosing symbol.** Refuted: what goes with a report is always a low end of the inlined code itself, since the scanner is made anew for each entry. Which value it is, is proved.
* **C84, Declarations are recorded with their own name and place.** Refuted: the namespace of functions and variables in enumeration and union types is lost (C84_enumeration, as in C44). Proved: something is recorded for each declared symbol, place and own name are always right, and the namespace is right elsewhere. If there are several declarations of a symbol, it is the last one that is recorded.
* **C85, No key crashes the full-screen user interface.** Refuted: an arrow key panics when the list in which it would move is empty, for example after the last problem was solved and the build goes on. Proved that nothing else panics. Drawing is not modelled.
* **C86, The config file is changed only by accepted edits.** Proved what the new text is in each case. Refuted: auto-accept writes the file even if there is nothing to accept, which creates an empty file if there was none. The edits are parameters here (C64, C70 to C73 are about them).
* **C87, Nothing is approved after the user has quit.** Refuted: with auto-accept on, problems reported after quitting are still accepted. Proved if auto-accept was never confirmed.
* **C88, A comment belongs to the edit for which it was entered.** Refuted: a comment stays when the user goes back, and is attached to the next edit that is accepted, even for another problem. Proved when the comment changes.
* **C90, While there are problems, one is selected.** Refuted with auto-accept: it removes problems without adjusting the index. Proved if auto-accept was never confirmed.
* **C91, The selection moves only by keys.** Refuted with auto-accept: solving an earlier problem moves the selection to another one. Proved if auto-accept was never confirmed.
* **C92, Quitting stops the build.** Proved if no error is shown. Refuted otherwise: q then aborts the store, but neither cargo is told to stop nor is the user interface left.
* **C93, The edit that is applied is the one on the screen.** Refuted: a reload of the config by another thread changes the list of edits without the screen being drawn. Proved if nobody else did anything since.
* **C95, The end of the input does not leave anybody waiting.** Refuted: the question is repeated forever, and those who wait never get an answer. Proved that nothing is approved and the config file is left alone.
* **C96, Errors do not end the line-based user interface.** Refuted: a fix that cannot be written ends the thread, and then nobody gets an answer any more. Proved exactly when the thread ends.
* **C99, The first config file restricts the APIs that were chosen.** Refuted: names switch APIs on and off, so an API that was typed in a rejected answer and again in the accepted one is not restricted. Proved for the first answer, and in general that an API is restricted if it was typed an odd number of times.
