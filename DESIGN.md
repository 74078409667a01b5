# Formal model of metrumresearchgroup/pkgr — design

## 1. Method

`/repo` (Go) was read as text; `/verif/lean` is a Lean 4 model of it, function by function, with proofs.

* `Verif/Model/*` — definitions that follow the Go code; every definition cites file and lines.
* `Verif/Spec/*` — small specifications, independent of the model's helper functions, in which the properties are stated.
* `Verif/Proof/*` — lemmas.
* `Verif/Props/*` — the property theorems `Cnn_…` and, beside each, an `example` showing that a concrete non-trivial case meets the hypotheses.

Conventions. A Go string is a list of characters. A Go map is an association list with distinct keys; wherever the
program ranges over a map the order is an argument (an arbitrary "oracle" that visits each key once), so a theorem holds
for every iteration order. A slice is a list. `panic`, `log.Fatal`, `os.Exit` are explicit result values. Goroutines and
channels are transition systems, a step being one channel operation, one critical section or one file-system operation;
a theorem about a run quantifies over all interleavings. The file system is a function from paths to nodes; code that
matters for crashes yields the list of all states it passes through, so "crash at any point" is "any element of that
list" or "any reachable state".

A property that the code does not have is not rephrased until it holds: the English statement stays, its negation is
proved with a concrete witness (`Cnn_violated…`), what does hold is proved as `…_partial`, and the status is *partial*.

## 2. Trusted base

* Lean's kernel (4.33.0). No axioms are added; no `native_decide`, no `bv_decide`, no placeholder proofs. The theorems
  depend at most on `propext`, `Classical.choice`, `Quot.sound`; the axioms of each theorem are given in section 4
  (output of `#print axioms`).
* The reading of the Go code: nothing ties the definitions to the code but the citations. The code was not run.
* The semantics given to the Go runtime and to dependencies, namely:
  - `strings`, `strconv`, `path/filepath`, `bufio.ScanLines` as written out in `Model/Base.lean`, `Model/Session.lean`
    and `Model/Fs.lean`; strings are characters, not bytes (invalid UTF-8 is outside the model); paths are Unix paths;
  - memory is sequentially consistent (the unsynchronised flag `anyFailed` in rcmd/install.go is read and written
    atomically); unbuffered and buffered channels, `sync.WaitGroup`, `sync.Mutex` have their documented meaning;
  - `yaml.v3`, `viper` (decoding), `gob` (encode/decode: a complete file decodes to what was encoded, an incomplete one
    does not decode), `mholt/archives` (delivers the entries of the archive, or an error), TLS/HTTP (an oracle from URLs
    to answers; for C163–C165 the clients of net/http are written out in `Model/Web.lean`: certificates, redirects, proxy), SHA/md5 digests (an arbitrary function, injective only where a theorem says so);
  - the control-file library (`pault.ag/go/debian`), written out in `Model/Control.lean` for C151–C153 after its documented
    behaviour and the expectations of desc/desc_test.go; elsewhere an arbitrary decoder;
  - `goutils.WriteLines`/`ReadLines` and `afero.WriteFile` truncate the file in place and then write it;
  - temporary directories that pkgr creates are new and distinct from each other, from the library and the cache;
  - the file system has no links, permissions, quotas; single operations (rename, mkdir, remove of one node) are atomic.
    Failures of operations are modelled where the code looks at them (rollback, extraction, downloads, copying).
* R itself: an arbitrary process within a contract that each theorem states as a hypothesis (`Spec/Install.lean`,
  `Spec/Queue.lean`): `R CMD INSTALL` writes only below the package's directory, its lock directory and its build
  directory, and status 0 means installed. Theorems that do not need it do not assume it.

## 3. What is not modelled

* the text of log records (secrets: C65; which records are shown and where they are written: C120–C123); progress display; JSON printing and the drawing of the tree;
* the command-line parser (cobra/pflag) and the YAML/viper decoding of `pkgr.yml` into the configuration structure;
* Windows path syntax, file permissions, links; clocks other than the modification time of cache files (C10, C87);
* `cmd/debug.go`, `cmd/experiment.go` (prints only), `testhelper/`, `internal/tools/docgen`, tests;
* functions never called from a command (for example `RunRBatch`, `RunRscriptWithArgs`, `Worker.Stop`, `randomString`
  beyond the distinctness assumption above);
* memory model beyond sequential consistency, scheduling fairness beyond "a step that is possible is eventually taken",
  performance.


## 4. Per property: what is modelled, how it is proved

Status: *proved* = every theorem listed holds at the strength of the English statement; *partial* = at least one theorem is a `_partial` (its restrictions are in its description) or refutes the statement (`violated`). The text after a theorem is its doc comment. Axioms: `p` propext, `c` Classical.choice, `q` Quot.sound, `–` none.


### C01 Version comparison is a total preorder — proved

Comparing two package versions returns only -1, 0 or 1, is reflexive (0 on equal versions), antisymmetric in sign, and transitive, so 'newer than' never cycles and is consistent whichever argument comes first. *Over:* all pairs and triples of versions.

*Model and proof:* `Model/Version.lean`: version parsing (split at `.`/`-`, `strconv.Atoi` with its int64 saturation) and comparison on character lists. Algebraic laws by case analysis on the lexicographic comparison; text-level theorems by induction on digit strings; specification of numerals and component lists in `Spec/Version.lean`.

- `C01_compare_range` (Props/VersionDep; p q): C01: comparison returns -1, 0 or 1.
- `C01_compare_antisymm` (Props/VersionDep; p c q): C01: swapping the arguments negates the result (so exactly one of `<`, `=`, `>` holds and `a` older than `b` iff `b` newer than `a`).
- `C01_compare_eq_iff` (Props/VersionDep; p c q): C01: a version equals itself, and "equal" means equal in every numeric component.
- `C01_compare_trans` (Props/VersionDep; p c q): C01: "not newer than" is transitive.
- `C01_compare_trans_strict` (Props/VersionDep; p c q): C01: "older than" is transitive, also when one of the two steps is an equality, so an upgrade chain never cycles.
- `C01_isLowerVersion_not_order` (Props/VersionDep; –): C01 (the other comparison in the same file): `isLowerVersion`, the `Less` of the sort interface, is not an order at all — 1.2 and 2.1 are each "lower" than the other. (It has no caller in pkgr.)
- `C01_isLowerVersion_says` (Props/VersionDep; p c q): C01 (the same): what it says is that one of the four numbers is smaller, wherever it stands and whatever is before it; the patch number is never looked at.

### C02 Versions of two to four numeric components compare numerically, component by component — proved

For version strings made of two to four decimal numbers separated by '.' or '-', comparing the texts gives the lexicographic order of the number sequences padded with zeros; the separator does not matter (1.10 > 1.9, 1.2-3 = 1.2.3). *Over:* all number sequences of length 2..4 and all separator choices.

*Model and proof:* `Model/Version.lean`: version parsing (split at `.`/`-`, `strconv.Atoi` with its int64 saturation) and comparison on character lists. Algebraic laws by case analysis on the lexicographic comparison; text-level theorems by induction on digit strings; specification of numerals and component lists in `Spec/Version.lean`.

- `C02_text_compare` (Props/VersionDep; p c q): C02: texts of two to four numbers compare numerically, whatever the separators.
- `C02_any_size` (Props/VersionDep; p c q): C02 without a bound: numbers that do not fit into 63 bits all count as the largest one that does; up to that, texts of two to four numbers compare numerically.
- `C02_single_component_panics` (Props/VersionDep; p q): C02: a version text with fewer than two numbers makes the comparison panic.
- `C02_number_texts` (Props/VersionMore; p q): C02: the number that a piece of a version text counts as, for every text: see `countsAs`.
- `C02_any_text` (Props/VersionMore; p q): C02: the four pieces of a version text - between its first three separators, the fourth piece being all that follows - count in this way; without two pieces the program panics.

### C03 Versions with more components compare numerically too — partial

For version strings of five or more numeric components, comparing the texts gives the lexicographic order of the number sequences. *Over:* all number sequences of length at least 5.

*Model and proof:* `Model/Version.lean`: version parsing (split at `.`/`-`, `strconv.Atoi` with its int64 saturation) and comparison on character lists. Algebraic laws by case analysis on the lexicographic comparison; text-level theorems by induction on digit strings; specification of numerals and component lists in `Spec/Version.lean`.

- `C03_long_versions_partial` (Props/VersionDep; p q): C03 (what the code does with five or more components): only the first three numbers count.
- `C03_violated` (Props/VersionDep; p): C03 is false: 1.2.3.4.5 is reported older than 1.2.3.1, and equal to 1.2.3.4.6.

### C04 Dependency text round trip — proved

Rendering a dependency (name, constraint, version) as text and parsing it back gives the same dependency. *Over:* all names without parentheses/surrounding space, all constraints, all 2..4 component versions.

*Model and proof:* `Model/Dep.lean`: `ParseDep`, `ToString`, DESCRIPTION fields on character lists, panics as an explicit value. Splitting and trimming lemmas.

- `C04_parse_written` (Props/Dep; p q): C04: a dependency written `name (op version)`, with any amount of white space anywhere between the tokens, parses to exactly that name, operator and version (or panics iff the version does).
- `C04_roundtrip` (Props/Dep; p q): C04: rendering a constrained dependency and parsing the text gives the dependency back.
- `C04_unconstrained_does_not_roundtrip` (Props/Dep; p): C04 (boundary): an unconstrained dependency is rendered as `name (Unknown constraint )`, which does not parse back — the program would panic.

### C05 A malformed dependency never silently becomes a different constraint — proved

Parsing a dependency either yields the constraint operator that is written, or yields 'no constraint' exactly when there is no parenthesis, or aborts; and it aborts exactly when the parenthesised text has no comparison operator or its version has fewer than two components. *Over:* all dependency strings.

*Model and proof:* `Model/Dep.lean`: `ParseDep`, `ToString`, DESCRIPTION fields on character lists, panics as an explicit value. Splitting and trimming lemmas.

- `C05_bare_name` (Props/Dep; p): C05: text without a parenthesis is a bare name.
- `C05_panic_iff` (Props/Dep; p c q): C05: exact panic condition. `pv` is the text between the first `(` and the next one, with one `)` removed; parsing panics iff there is no operator in it or no version separator in it.
- `C05_never_dropped` (Props/Dep; p q): C05: whatever it parses to, "no constraint" is only ever the result of a text without parenthesis, so a written requirement is never silently dropped.
- `C05_description` (Props/RepoDb; p q): C05: a description says what the decoded stanza says, the dependency tables being filled from the items of the corresponding fields (the last one of a name counts).
- `C05_description_panics_iff` (Props/RepoDb; p q): C05: building a description panics iff one of the items of the four dependency fields does.

### C06 Packages incompatible with the running R are never offered — partial

A stanza of a repository index is offered iff its R requirement (Depends: R (op v)) is satisfied by the running R version; a package that states no version for R is offered. *Over:* all index stanzas, all R versions.

*Model and proof:* `Model/RepoDb.lean`: the R version filter, filing of stanzas as a fold, aggregation of fetch results, the hashed text. Fold induction; the digest is a parameter, collisions are excluded only where the theorem says so.

- `C06_no_requirement` (Props/RepoDb; p): C06: a stanza without an R requirement is always compatible.
- `C06_requirement` (Props/RepoDb; p c q): C06: a stanza that requires `R (op v)`, `v` a text of two to four numbers, is compatible with the running R iff the operator holds between the numbers.
- `C06_total` (Props/RepoDb; p q): C06: "compatible" is never undetermined — the check itself cannot panic.
- `C06_bare_R_violated` (Props/RepoDb; p q): C06 is false for a package that says `Depends: R` without a version: it is filtered out under every version of R.

### C07 An index is loaded as: last acceptable stanza per package wins — proved

After loading an index, looking a package up gives exactly the last stanza of that name that is in the main directory (no Path) and is R-compatible; every entry is filed under its own package name. *Over:* all index texts and all package names.

*Model and proof:* `Model/RepoDb.lean`: the R version filter, filing of stanzas as a fold, aggregation of fetch results, the hashed text. Fold induction; the digest is a parameter, collisions are excluded only where the theorem says so.

- `C07_stanzas_exist` (Props/RepoDb; p q): C07: every index text has stanzas, and only one way to be divided into them.
- `C07_last_acceptable_wins` (Props/RepoDb; p c q): C07: after loading an index, a lookup gives exactly the last acceptable stanza of that name.
- `C07_entries_keyed` (Props/RepoDb; p c q): C07: every entry is filed under its own name, in the main directory, compatible with R.
- `C07_loads_iff` (Props/RepoDb; p q): C07: loading succeeds iff every stanza that is not empty decodes and none of its dependencies is malformed: one bad stanza makes the whole index unusable.

### C08 A repository that cannot be fetched is reported — partial

If no package index of a repository can be downloaded, building the package database reports an error rather than treating the repository as empty. *Over:* all repositories, source-type sets and fetch outcomes.

*Model and proof:* `Model/RepoDb.lean`: the R version filter, filing of stanzas as a fold, aggregation of fetch results, the hashed text. Fold induction; the digest is a parameter, collisions are excluded only where the theorem says so.

- `C08_violated` (Props/RepoDb; p): C08 is false: with a single source type (every repository on Linux that is not an MPN one) a failed fetch is not an error; the repository is treated as empty — for every database without binaries.
- `C08_both_types_partial` (Props/RepoDb; p): C08, the part that holds: with both source types, if every index fails the error is reported, whichever fails first.
- `C08_source_loaded` (Props/RepoDb; p q): C08: when the source index loads, it is used exactly, whatever happens to the binary index and in whatever order the two fetches finish.

### C09 Cached repository databases are not mixed up — partial

Two repository configurations that differ in name, URL, source types or R version use different cache files. *Over:* all pairs of repository configurations.

*Model and proof:* `Model/RepoDb.lean`: the R version filter, filing of stanzas as a fold, aggregation of fetch results, the hashed text. Fold induction; the digest is a parameter, collisions are excluded only where the theorem says so.

- `C09_violated_source_types` (Props/RepoDb; p): C09 is false for source types: whatever the digest, a database with binaries and one without use the same cache file (the sum of source types is printed through a method that maps it to "source").
- `C09_violated_concatenation` (Props/RepoDb; p): C09 is false for names and URLs: name and URL are concatenated without separator.
- `C09_same_name_partial` (Props/RepoDb; p c q): C09, the part that holds: for one repository name and a digest that does not collide on the two texts at hand, different URLs or different R versions give different cache files.
- `C09_stale_binaries` (Props/RepoDb; p): C09 consequence: after the repository type is changed so that binaries become available, a fresh cache file written without binaries is still decoded, and no binary package is offered.

### C10 Cache freshness — proved

A cached repository database is used iff it exists and is younger than the configured maximum age (3600 s unless the environment variable holds a number); otherwise the index is fetched. *Over:* all clocks, modification times, settings.

*Model and proof:* `Model/RepoDb.lean`: the R version filter, filing of stanzas as a fold, aggregation of fetch results, the hashed text. Fold induction; the digest is a parameter, collisions are excluded only where the theorem says so.

- `C10_freshness` (Props/RepoDb; p c q): C10: the cache is used iff the file exists and is younger than the maximal age.

### C11 Repository priority does not depend on fetch timing — proved

The list of loaded repositories is in configuration order whatever order the concurrent fetches finish in; an error is reported iff some fetch failed. *Over:* all completion orders of the fetches.

*Model and proof:* `Model/Nexus.lean`: order of arrival is an arbitrary permutation of the results; resolution is a search through the list; the specification says 'the first configured repository that …'. Permutation invariance, list induction.

- `C11_arrival_order_irrelevant` (Props/Nexus; p c q): C11: whatever order the concurrent repository fetches finish in, the repositories end up in configuration order, and an error is reported iff some fetch failed. `results` is in configuration order.

### C12 First configured repository wins — proved

Without a pin, a package resolves to the first configured repository that offers it in the source type in force, and fails to resolve iff none does. *Over:* all databases, packages and settings.

*Model and proof:* `Model/Nexus.lean`: order of arrival is an arbitrary permutation of the results; resolution is a search through the list; the specification says 'the first configured repository that …'. Permutation invariance, list induction.

- `C12_resolution` (Props/Nexus; p q): C12: what a package resolves to, for all settings.
- `C12_first_repo_wins` (Props/Nexus; p q): C12: a package without settings resolves to the first repository offering it in the type in force.
- `C12_unresolved_iff` (Props/Nexus; p c q): C12: resolution of a package without settings fails iff no repository offers it.

### C13 Repository pins are honoured — proved

A package pinned to a repository resolves only to a repository of that name, or not at all; pinning to an unknown repository is an error. *Over:* all databases, packages and pins.

*Model and proof:* `Model/Nexus.lean`: order of arrival is an arbitrary permutation of the results; resolution is a search through the list; the specification says 'the first configured repository that …'. Permutation invariance, list induction.

- `C13_pin_succeeds_iff` (Props/Nexus; p q): C13: pinning succeeds iff a repository of that name is configured.
- `C13_pin_honoured` (Props/Nexus; p q): C13: after pinning a package to a repository (a non-empty name), it is obtained exactly from the first repository of that name that offers it (in the type set for the package before, else the global one); nothing else of the settings changes.
- `C13_pin_local` (Props/Nexus; p q): C13: pinning a package does not change how other packages resolve.

### C14 Type pins are honoured — proved

A package pinned to source or binary resolves only to that type; pinning to any other word is an error. *Over:* all databases, packages and pins.

*Model and proof:* `Model/Nexus.lean`: order of arrival is an arbitrary permutation of the results; resolution is a search through the list; the specification says 'the first configured repository that …'. Permutation invariance, list induction.

- `C14_type_words` (Props/Nexus; p q): C14: the two words `source` and `binary` are accepted in any capitalisation, and no other text is.
- `C14_pin_honoured` (Props/Nexus; p q): C14: after pinning a package to a type, it is obtained in exactly that type, from the first repository that its settings allow and that offers it in that type; nothing else of the settings changes.

### C15 A repository's default type is honoured — partial

A package found in a repository that has a default source type is taken in that type unless the package has its own type setting. *Over:* all databases and packages.

*Model and proof:* `Model/Nexus.lean`: order of arrival is an arbitrary permutation of the results; resolution is a search through the list; the specification says 'the first configured repository that …'. Permutation invariance, list induction.

- `C15_default_type_partial` (Props/Nexus; p q): C15, the part that holds: without any package setting, a repository's default type is the one used.
- `C15_violated` (Props/Nexus; –): C15 is false once the package is pinned to that very repository: the pin switches the repository's default type off, so package `b`, offered by R2 in R2's default type, resolves without a pin and becomes unavailable when pinned to R2.

### C16 Ignored packages are never planned or installed — proved

A package listed in IgnorePackages is not resolvable from any repository and never appears in an install plan as a downloadable package. *Over:* all ignore lists, databases and plans.

*Model and proof:* `Model/Nexus.lean`: order of arrival is an arbitrary permutation of the results; resolution is a search through the list; the specification says 'the first configured repository that …'. Permutation invariance, list induction.

- `C16_ignored_unresolvable` (Props/Nexus; p q): C16: an ignored package resolves from nowhere, whatever the settings.
- `C16_others_unchanged` (Props/Nexus; p q): C16: ignoring packages does not change how other packages resolve.
- `C16_never_planned` (Props/Plan; p c q): C16: an ignored package is in no plan: not among its packages, not among its downloads; and asking for one explicitly is reported as missing.

### C17 Missing packages are reported exactly — proved

Checking availability reports exactly the requested packages that no repository resolves, and pairs every requested package with its lookup result. *Over:* all request lists.

*Model and proof:* `Model/Nexus.lean`: order of arrival is an arbitrary permutation of the results; resolution is a search through the list; the specification says 'the first configured repository that …'. Permutation invariance, list induction.

- `C17_missing_exact` (Props/Nexus; p c q): C17: `Missing` is exactly the requested packages that do not resolve, in request order, and the i-th entry of `Packages` is the i-th request's resolution (empty when missing).
- `C17_all_names` (Props/NexusMore; p c q): C17: the names that a missing package is compared with for suggestions: each package that some repository offers, as source or binary, once, and no other; in particular no ignored one.

### C18 Planning terminates on every repository, including cyclic ones — proved

Dependency collection finishes for every database, including databases with circular dependencies or circular Suggests, within a number of steps bounded by the number of offered packages. *Over:* all databases, all settings, all map iteration orders.

*Model and proof:* `Model/Plan.lean`: graph collection with fuel (sufficiency is C18), layering, iteration order of every Go map an arbitrary oracle that must visit each key once; specification by inductive predicates (reachability, least closed set). Invariants of the work list, well-founded recursion for the layers.

- `C18_fetched_databases_keyed` (Props/Plan; p q): C18: databases built by fetching and decoding indexes, or read back from the cache, file every description under its own name (the hypothesis `Keyed` of the theorems below).
- `C18_collection_terminates` (Props/Plan; p c q): C18: collecting the dependencies of a package (into any graph, with any settings, whatever the repository contains) finishes with recursion depth at most the number of offered names plus one; and it makes at most that many calls in all: the counter advances by four `range` loops per call.
- `C18_planning_terminates` (Props/Plan; p c q): C18: planning never diverges: with the bound above, dependency collection for any list of packages succeeds and the whole resolution never reports that the bound was hit.

### C19 The plan is the least closed set — proved

The set of packages in the plan is exactly the least set containing the requested packages and closed under the dependency fields selected for each package (minus base/recommended exclusions); each package's recorded requirements are exactly those dependencies. *Over:* all databases, settings, requests, map orders.

*Model and proof:* `Model/Plan.lean`: graph collection with fuel (sufficiency is C18), layering, iteration order of every Go map an arbitrary oracle that must visit each key once; specification by inductive predicates (reachability, least closed set). Invariants of the work list, well-founded recursion for the layers.

- `C19_graph_least_closed_set` (Props/Plan; p c q): C19: collecting dependencies for available packages gives exactly the least set containing them and closed under the selected dependency fields and settings, and records exactly each package's requirements. `cfg` are the settings in force for each package.
- `C19_plan_packages` (Props/Plan; p c q): C19 (planInstall level): the packages of a returned plan are exactly the requested packages, everything they transitively need, and what is suggested by packages whose settings ask for it; each occurs once.

### C20 Base and excluded recommended packages are never planned — partial

A base R package never enters the plan, and with NoRecommended no recommended package does, unless the user requested it. *Over:* all databases, settings, requests.

*Model and proof:* `Model/Plan.lean`: graph collection with fuel (sufficiency is C18), layering, iteration order of every Go map an arbitrary oracle that must visit each key once; specification by inductive predicates (reachability, least closed set). Invariants of the work list, well-founded recursion for the layers.

- `C20_exclusion_partial` (Props/Plan; p c q): C20, partial: a package that ships with R (base, or recommended when those are not wanted) is only planned if it was requested or is suggested by a planned package whose settings ask for suggested packages. Missing: the suggested ones should be excluded too, see `C20_violated`.
- `C20_violated` (Props/Plan; p): C20 is violated: with NoRecommended and global Suggests, a recommended package and even a base package that is merely suggested is planned.

### C21 Layering is sound — proved

Every package is in exactly one layer, and every dependency of a package is in a strictly earlier layer. *Over:* all graphs and map orders.

*Model and proof:* `Model/Plan.lean`: graph collection with fuel (sufficiency is C18), layering, iteration order of every Go map an arbitrary oracle that must visit each key once; specification by inductive predicates (reachability, least closed set). Invariants of the work list, well-founded recursion for the layers.

- `C21_layering_sound` (Props/Plan; p c q): C21: every package is in exactly one layer (the layers together are a rearrangement of the graph's distinct package names); every requirement of a package is in a strictly earlier layer; a package outside the first layer has a requirement in the layer just before (no package waits needlessly); no layer is empty.

### C22 Circular dependencies are reported iff present — proved

Layering fails iff the requirements contain a cycle (or an unplanned requirement). *Over:* all graphs.

*Model and proof:* `Model/Plan.lean`: graph collection with fuel (sufficiency is C18), layering, iteration order of every Go map an arbitrary oracle that must visit each key once; specification by inductive predicates (reachability, least closed set). Invariants of the work list, well-founded recursion for the layers.

- `C22_circular_iff` (Props/Plan; p c q): C22: layering fails iff the requirements contain a cycle, or a requirement that is not in the graph.
- `C22_resolution_circular_iff` (Props/Plan; p c q): C22 (resolution level): for available packages and planning settings, resolution reports a circular dependency iff some package of the plan transitively needs itself; otherwise it returns a plan, unless a version cannot be compared.

### C23 Planning is deterministic up to order — proved

Two runs of planning on the same inputs, whatever the map iteration orders, plan the same packages, the same downloads, the same per-package dependency sets and the same layers as sets. *Over:* all pairs of map iteration orders.

*Model and proof:* the planning model; every outcome is characterised by a condition on the repositories, the request and the library, from the totality of the resolution and the exact condition for a version comparison to panic

- `C23_planning_deterministic` (Props/Outcome; p c q): C23, for planning as a whole: whatever order the tables of the tarballs', the DESCRIPTION files' and the packages' requirements are gone through in, planning ends in the same way: the same error, the same missing packages, or, for the same request, plans that say the same.
- `C23_layers_deterministic` (Props/Plan; p c q): C23 (layers): two graphs with the same packages and requirements have the same layers as sets, whatever the iteration orders, or both fail.
- `C23_plan_deterministic` (Props/Plan; p c q): C23: two resolutions of the same inputs under different iteration orders fail in the same way, or give plans with the same starting packages, the same dependency lists as sets, and the same downloads and outdated packages up to order.

### C24 Per-package dependency lists are exactly the transitive dependencies — proved

For every planned package outside the first layer, the recorded dependency list is exactly the set of packages reachable from it by dependency fields. *Over:* all databases and plans.

*Model and proof:* `Model/Plan.lean`: graph collection with fuel (sufficiency is C18), layering, iteration order of every Go map an arbitrary oracle that must visit each key once; specification by inductive predicates (reachability, least closed set). Invariants of the work list, well-founded recursion for the layers.

- `C24_dependency_lists` (Props/Plan; p c q): C24: for every planned package outside the first layer the recorded dependency list is, without repetition, exactly the set of packages it transitively needs; and every such package is itself planned.

### C25 Starting packages need nothing — proved

The packages started first are exactly the planned packages with no planned dependency; they and the packages with dependency lists partition the plan. *Over:* all plans.

*Model and proof:* `Model/Plan.lean`: graph collection with fuel (sufficiency is C18), layering, iteration order of every Go map an arbitrary oracle that must visit each key once; specification by inductive predicates (reachability, least closed set). Invariants of the work list, well-founded recursion for the layers.

- `C25_starting_packages` (Props/Plan; p c q): C25: the packages started first are exactly the planned packages that need no other package; they and the packages with dependency lists partition the plan.

### C26 Every planned package is downloaded exactly once — proved

The download list has exactly one entry for every planned package, resolved as configured. *Over:* all plans.

*Model and proof:* `Model/Plan.lean`: graph collection with fuel (sufficiency is C18), layering, iteration order of every Go map an arbitrary oracle that must visit each key once; specification by inductive predicates (reachability, least closed set). Invariants of the work list, well-founded recursion for the layers.

- `C26_downloads` (Props/Plan; p c q): C26: the download list has exactly one entry for every planned package, with the description and configuration that resolving the package gives.

### C27 Reverse dependencies are the exact converse — proved

The inverted dependency table lists b under a iff a is listed under b, sorted and once. *Over:* all dependency tables, map orders.

*Model and proof:* `Model/Plan.lean`: graph collection with fuel (sufficiency is C18), layering, iteration order of every Go map an arbitrary oracle that must visit each key once; specification by inductive predicates (reachability, least closed set). Invariants of the work list, well-founded recursion for the layers.

- `C27_inverse_exact` (Props/Plan; p c q): C27: in the inverted table, `b` is listed under `a` iff `a` is listed under `b`; every listed name occurs once, in alphabetical order; a package nobody depends on has no entry.
- `C27_order_is_lexicographic` (Props/Plan; p c q): C27: the order `strLe` used for sorting is the lexicographic order of the characters' code points.

### C28 Suggests settings mean what they say — partial

With global Suggests, suggested packages of the requested packages are planned and suggested packages of mere dependencies are not; a per-package Suggests setting overrides the global one for that package only. *Over:* all settings, databases and requests.

*Model and proof:* `Model/Plan.lean`: graph collection with fuel (sufficiency is C18), layering, iteration order of every Go map an arbitrary oracle that must visit each key once; specification by inductive predicates (reachability, least closed set). Invariants of the work list, well-founded recursion for the layers.

- `C28_suggests_partial` (Props/Plan; p c q): C28, partial: when no package has two customization entries, the packages of a plan are exactly the requested packages, everything they need, and the suggestions of those planned packages for which the configuration asks (own setting, else the global one for listed packages). Missing: configurations with two entries for one package, see `C28_violated_duplicate_entries`.
- `C28_violated_duplicate_entries` (Props/Plan; p): C28 is violated when a package has two customization entries: a second entry that says nothing about Suggests (for example one that only sets an environment variable) switches off the Suggests that the first one asked for, so `s` is not planned; and if one of them sets the type, planning ends with a fatal error.

### C29 Tarball and DESCRIPTION requirements are planned — partial

Every package that a listed tarball or DESCRIPTION file needs to install (Depends, Imports, LinkingTo) is requested. *Over:* all DESCRIPTION contents.

*Model and proof:* `Model/Plan.lean`: graph collection with fuel (sufficiency is C18), layering, iteration order of every Go map an arbitrary oracle that must visit each key once; specification by inductive predicates (reachability, least closed set). Invariants of the work list, well-founded recursion for the layers.

- `C29_requested_partial` (Props/Plan; p c q): C29, partial: what is requested, exactly: the configured packages, the Imports and LinkingTo of every tarball, and the Imports, LinkingTo and Suggests of every DESCRIPTION file, except base packages. Missing: their Depends, see `C29_violated`.
- `C29_violated` (Props/Plan; p c q): C29 is violated: a tarball or DESCRIPTION that needs `c` through Depends does not get it requested.
- `C29_files_partial` (Props/Tarballs; p c q): C29 (partial: not for what is needed through Depends), from the files on: when the configured tarballs and DESCRIPTION files have been read, each package that the DESCRIPTION in an unpacked tarball names under Imports or LinkingTo, or a listed DESCRIPTION file under Imports, LinkingTo or Suggests, is requested unless it comes with R; and nothing else is but what the configuration lists.

### C30 An empty package list is not a crash — partial

Planning with no packages gives an empty plan. *Over:* all databases.

*Model and proof:* the planning model; every outcome is characterised by a condition on the repositories, the request and the library, from the totality of the resolution and the exact condition for a version comparison to panic

- `C30_nonempty_partial` (Props/Outcome; p c q): C30, as far as it holds: for packages that can be obtained, the crash on an empty layer list occurs for the empty list of packages only. Missing: the empty list (`C30_violated`).
- `C30_violated` (Props/Plan; p): C30 is violated: resolving an empty package list never gives a plan; with nothing installed it panics on the empty layer list, for all settings and databases.

### C31 Outdated means strictly older — proved

The outdated list has exactly one entry per installed package whose installed version is strictly older than the version on offer, and never proposes a downgrade. *Over:* all installed sets and offers.

*Model and proof:* `Model/Plan.lean`: graph collection with fuel (sufficiency is C18), layering, iteration order of every Go map an arbitrary oracle that must visit each key once; specification by inductive predicates (reachability, least closed set). Invariants of the work list, well-founded recursion for the layers.

- `C31_outdated_exact` (Props/Plan; p c q): C31: the outdated list of a plan names exactly the installed packages that a repository offers in a strictly newer version, with both versions; no package is named twice. (`hne`: installed packages have names; pacman rejects descriptions without one.)
- `C31_never_a_downgrade` (Props/Plan; p c q): C31: never a downgrade: for versions made of two to four numbers, an outdated entry's new version is larger in the numeric order.

### C32 The reported number of packages to install is exact — partial

The number reported as to install equals the number of planned packages that are not installed or are to be updated. *Over:* all plans and installed sets.

*Model and proof:* the planning model; every outcome is characterised by a condition on the repositories, the request and the library, from the totality of the resolution and the exact condition for a version comparison to panic

- `C32_exact_partial` (Props/Outcome; p c q): C32, the number reported, exactly: the number of packages and tarballs that must be installed, each counted once; plus those planned packages that are given as a tarball, too; plus, when updating, the outdated packages that are not planned or that are given as a tarball. The number is right iff there is no package of the two latter kinds. Missing: that there is none, see `C32_violated`.
- `C32_count_partial` (Props/Plan; p c q): C32, partial: when no tarball is also planned from a repository and every outdated package is planned and installed (and named once), the number reported is the number of planned packages and tarballs that must be installed. Missing: outdated packages outside the plan, see `C32_violated`.
- `C32_violated` (Props/Plan; p): C32 is violated: with an outdated installed package that is not part of the plan, the number reported exceeds the number of packages to install (here everything planned is installed and current).

### C33 A package is never built before all its dependencies are installed — proved

In every execution of an install plan, whenever a package's installation starts, every package in its dependency list has already been installed successfully. *Over:* all plans, all interleavings, all outcome patterns, any worker count.

*Model and proof:* `Model/Sched.lean`: requester, workers, updater and caller as a transition system, one step per channel operation or critical section; invariants by induction over executions, bounded length by a measure, negative results by exhibiting and closing off executions.

- `C33_plans_are_well_formed` (Props/Sched; p c q): C33: every plan that planning returns satisfies the hypothesis `WellFormed` of the theorems below, for any number of workers and any iteration order.
- `C33_dependencies_first` (Props/Sched; p c q): C33: in every execution, at every moment and for every installation started so far, all dependencies of the package had been installed successfully before it started.
- `C33_needed_first` (Props/Sched; p c q): C33, from planning to installation: whatever a package transitively needs according to the repositories was installed successfully before the package's installation started.

### C34 No package is installed twice — proved

In every execution, each planned package's installation starts at most once. *Over:* all plans, interleavings, outcomes, worker counts.

*Model and proof:* `Model/Sched.lean`: requester, workers, updater and caller as a transition system, one step per channel operation or critical section; invariants by induction over executions, bounded length by a measure, negative results by exhibiting and closing off executions.

- `C34_started_once` (Props/Sched; p c q): C34: in every execution of every plan (well-formed or not), each package's installation is started at most once.
- `C34_only_planned` (Props/Sched; p c q): C34: only planned packages are started, and an installation ends at most once and only after it started.

### C35 A successful run installs the whole plan — proved

If the run returns and no package failed, every planned package was installed. *Over:* all plans, interleavings, worker counts.

*Model and proof:* `Model/Sched.lean`: requester, workers, updater and caller as a transition system, one step per channel operation or critical section; invariants by induction over executions, bounded length by a measure, negative results by exhibiting and closing off executions.

- `C35_all_installed` (Props/Sched; p c q): C35: if the run returns without error, every package of the plan was installed successfully.

### C36 No deadlock without failures — proved

When no package fails and the plan has at most 2000 packages, some goroutine can always make progress until the run returns, and every execution finishes within a bounded number of steps. *Over:* all plans of at most 2000 packages, all interleavings.

*Model and proof:* `Model/Sched.lean`: requester, workers, updater and caller as a transition system, one step per channel operation or critical section; invariants by induction over executions, bounded length by a measure, negative results by exhibiting and closing off executions.

- `C36_progress` (Props/Sched; p c q): C36: as long as nothing goes wrong (and there is a worker), a run of a plan with at most 2500 packages plus the number of workers that has not returned can always take a step.
- `C36_bounded` (Props/Sched; p c q): C36: every execution, whatever happens in it, has at most this many steps: eleven for every package and three for every pair of a package and a dependent of it, plus the return.
- `C36_completes` (Props/Sched; p c q): C36: so a run in which nothing goes wrong and that has gone as far as it can has returned, without an error, with the whole plan installed.
- `C36_capacity_needed` (Props/Sched; p c q): The size condition is needed: with queue capacities 1 instead of 2000 and 500, a plan in which one package unlocks five others can deadlock although nothing goes wrong.

### C37 Dependents of a failed package are not installed, and the failure is reported — proved

If a package fails no package depending on it (directly or not) is started, and the run, if it returns, returns an error iff some installation failed. *Over:* all plans, interleavings, outcomes.

*Model and proof:* `Model/Sched.lean`: requester, workers, updater and caller as a transition system, one step per channel operation or critical section; invariants by induction over executions, bounded length by a measure, negative results by exhibiting and closing off executions.

- `C37_dependents_not_started` (Props/Sched; p c q): C37: if an installation failed, no package that depends on it, directly or not, is ever started.
- `C37_error_iff` (Props/Sched; p c q): C37: if the run returns, it returns an error exactly if some installation failed, and the error names exactly the packages whose installation failed.

### C38 The run ends after a failure — partial

When a package fails, the run still returns (so that rollback can happen). *Over:* all plans, interleavings, outcomes.

*Model and proof:* `Model/Sched.lean`: requester, workers, updater and caller as a transition system, one step per channel operation or critical section; invariants by induction over executions, bounded length by a measure, negative results by exhibiting and closing off executions.

- `C38_violated_lost_request` (Props/Sched; p c q): C38 is violated in general: once a failure has been recorded while some package has still to be looked at by the requester (a starting package not yet handed over, or a name just received), the run can never return: the name is dropped without telling the wait group.
- `C38_violated` (Props/Sched; p c q): C38 is violated: an example with a well-formed plan and two workers: the first package fails before the second, independent one has been handed over; the run never returns.
- `C38_violated_copy` (Props/Sched; p c q): C38 is violated even without a failed installation: when the copy of a built binary into the cache fails, the run can never return.
- `C38_returns_partial` (Props/Sched; p c q): C38, the part that holds: as long as no name has been dropped and no copy of a binary failed (`leaked = 0`), the run can go on after a failure until it returns; by `C36_bounded` it does so after finitely many steps. Missing: see `C38_violated`.
- `C38_returns_iff_partial` (Props/SchedMore; p c q): C38, exactly: an execution of a plan (with a worker, and within the capacity of the queues) that can go no further has returned iff every package that was handed over to be installed was started, and no copy of a built binary failed; by `C36_bounded` every execution comes to such a point. Missing: that these always hold, see `C38_violated` and `C38_violated_copy`.

### C39 The run does not return while an installation is in progress — proved

When the install call returns, no worker is still installing a package; the outstanding-work counter never goes negative. *Over:* all plans, interleavings, outcomes.

*Model and proof:* `Model/Sched.lean`: requester, workers, updater and caller as a transition system, one step per channel operation or critical section; invariants by induction over executions, bounded length by a measure, negative results by exhibiting and closing off executions.

- `C39_quiet_after_return` (Props/Sched; p c q): C39: when the run has returned nothing is being installed, queued or waiting to be processed, and nothing can happen any more; the wait-group counter is never negative.

### C40 At most the configured number of concurrent installations — proved

At any moment at most n packages are being installed, n the worker count. *Over:* all interleavings, all n.

*Model and proof:* `Model/Sched.lean`: requester, workers, updater and caller as a transition system, one step per channel operation or critical section; invariants by induction over executions, bounded length by a measure, negative results by exhibiting and closing off executions.

- `C40_concurrency` (Props/Sched; p c q): C40: at any moment at most as many packages are being installed as there are workers, and they are different packages.
- `C40_threads` (Props/Sched; p c q): C40, for the run of a plan with `n` threads: at most `n` packages are being installed at once.

### C41 Worker count choice — proved

The worker count is the configured thread count, else min(8, max(CPUs,1)). *Over:* all settings.

*Model and proof:* `Model/Install.lean` on `Model/Fs.lean`: `Install`, `InstallThroughBinary`, the cache lookup and the DESCRIPTION stamp as file-system transformers that keep every intermediate state; R is an oracle constrained by a contract stated in `Spec/Install.lean`.

- `C41_worker_count` (Props/Install; p q): C41: a thread count of at least one is used as it is; otherwise the number of CPUs, but at most 8. On any machine (at least one CPU) there is at least one worker.

### C42 Documented default cap of 8 workers — partial

If Threads is not configured at most 8 packages are installed at once. *Over:* all machines.

*Model and proof:* `Model/Install.lean` on `Model/Fs.lean`: `Install`, `InstallThroughBinary`, the cache lookup and the DESCRIPTION stamp as file-system transformers that keep every intermediate state; R is an oracle constrained by a contract stated in `Spec/Install.lean`.

- `C42_violated` (Props/Install; p q): C42 does not hold: when neither the flag nor the configuration sets a thread count, the number of workers is the number of CPUs, however large.
- `C42_explicit_partial` (Props/Install; p q): C42, what does hold: the cap applies when the thread count is explicitly set to a value below one, and explicit positive settings are obeyed, the flag winning over the configuration.

### C43 A failed build never touches an installed package — proved

When a package built in two passes (build in a temporary library, then install the binary) fails in the build pass, the target library is unchanged; a package directory already present is left as is. *Over:* all libraries, packages and outcomes.

*Model and proof:* `Model/Install.lean` on `Model/Fs.lean`: `Install`, `InstallThroughBinary`, the cache lookup and the DESCRIPTION stamp as file-system transformers that keep every intermediate state; R is an oracle constrained by a contract stated in `Spec/Install.lean`.

- `C43_present_untouched` (Props/Install; p q): C43: when the package's directory is already in the library nothing at all happens.
- `C43_failed_build` (Props/Install; p q): C43: when R's build pass (into the temporary directory) fails, R is never called on the target library and the target library is exactly as before; when there was a source to build, a failure is reported.
- `C43_only_own_package` (Props/Install; p q): C43: whatever happens, everything in the library outside the package's own directory (and R's lock) is unchanged.
- `C43_target_last` (Props/Install; p q): C43: R is called on the target library at most once, as the last call, with an already built binary.

### C44 The cached binary is found again — partial

The file name under which a built binary is stored is the name under which it is looked up, on every platform. *Over:* all package names and versions.

*Model and proof:* `Model/Install.lean` on `Model/Fs.lean`: `Install`, `InstallThroughBinary`, the cache lookup and the DESCRIPTION stamp as file-system transformers that keep every intermediate state; R is an oracle constrained by a contract stated in `Spec/Install.lean`.

- `C44_names_agree_partial` (Props/Install; p q): C44: the name R gives the built binary (as pkgr derives it from the tarball's name) is the name under which the cache is searched.
- `C44_violated_name` (Props/Install; –): C44 does not hold for every legal R package name.
- `C44_stored_where_searched_partial` (Props/Install; p q): C44: the place where the built binary of a downloaded source package is stored is the place where the next run looks for it.
- `C44_downloaded_binary` (Props/Install; p q): C44: a downloaded Linux binary is found in the cache exactly when R's platform string is the one pkgr hard-codes.
- `C44_cached_binary_used` (Props/InstallMore; p q): C44: when the package is not installed and its binary is in the cache, R is called exactly once, on the cached binary, with the library as its target and without building anything, and the result is R's.
- `C44_source_built` (Props/InstallMore; p q): C44: otherwise the package file is built first: R's first call is on the package file, with the temporary directory as its target.

### C45 Cache paths identify the package — proved

Two different (repository, package, version, type, R series) downloads never share a cache path. *Over:* all pairs of downloads.

*Model and proof:* `Model/Download.lean`: one download as a sequence of file-system states (crash points), all downloads as a transition system with a ten-slot semaphore; servers are an oracle from URLs to answers. Invariants over executions.

- `C45_distinct_paths` (Props/Download; p c q): C45: two downloads that share a cache path are the same package version, of the same kind, from the same repository, and (for binaries) for the same R series. The digest is only assumed not to collide on the two URLs at hand.
- `C45_underscore_needed` (Props/Download; –): The restriction to names without underscores is needed.

### C46 An interrupted download is never used — partial

After a crash or error during a download, a later run does not use the truncated file as the package. *Over:* all crash points and write failures.

*Model and proof:* `Model/Download.lean`: one download as a sequence of file-system states (crash points), all downloads as a transition system with a ten-slot semaphore; servers are an oracle from URLs to answers. Invariants over executions.

- `C46_violated_crash` (Props/Download; p q): C46 does not hold: for every package file with at least one character there is a moment during its download at which a crash leaves a truncated file that the next run uses as the package, without contacting the server.
- `C46_violated_cut` (Props/Download; p): C46 does not hold without a crash either: a connection cut in the middle reports an error now, but leaves a file that the next run uses.
- `C46_complete_partial` (Props/Download; p q): C46, what does hold: a download that reports success as new left exactly the full content at the destination; an existing file is never modified; nothing else is ever modified, not even in a crash.

### C47 Downloads: all attempted, at most ten at a time, failures visible — partial

All downloads are attempted, at most ten concurrently, the resulting table is the same in every schedule, and a package whose download failed does not get a usable path silently. *Over:* all schedules and outcomes.

*Model and proof:* `Model/Download.lean`: one download as a sequence of file-system states (crash points), all downloads as a transition system with a ten-slot semaphore; servers are an oracle from URLs to answers. Invariants over executions.

- `C47_at_most_ten` (Props/Download; p q): C47: at most ten downloads are in progress at any moment.
- `C47_schedule_independent` (Props/Download; p q): C47: when the downloads return, every one of them has been attempted, and the table and the files are the same in every schedule: for each package what downloading it alone gives, and nothing else.
- `C47_deterministic` (Props/Download; p q): C47: two schedules of the same downloads end in the same files and the same table.
- `C47_progress` (Props/Download; p q): C47: the downloads never get stuck: unless the program died (a missing local package file), some step is possible until they return.
- `C47_bounded` (Props/Download; p q): C47: every schedule ends: no execution has more than 3 steps per package plus one.
- `C47_path_iff_partial` (Props/Download; p q): C47, failures: a package gets an entry with a path exactly when its file is in the cache or was completely downloaded.
- `C47_violated_bad_status` (Props/Download; p q): C47 does not hold as far as failures are concerned: a server error (any status but 200) is stored in the table as a success without a path, and installing from that entry makes R install the current working directory.
- `C47_violated_same_name` (Props/Download; p q): C47 does not hold when two repositories share a name but not a URL: only one of the directories is created, so the packages of the other one are never stored even though the server delivers them.
- `C47_violated_fatal` (Props/Download; p q): A missing local package file ends the program at once: it never returns a table.
- `C47_fine_bounded` (Props/FetchEnds; p q): C47: the finely interleaved downloads come to an end: whatever the interleaving, they make at most seven steps for each package, one for each character that is delivered for it (or fewer, if several are written at once), and one to return. (By `C47_fine_progress` there is always a step until they have returned.)
- `C47_fine_at_most_ten` (Props/Fetching; p q): C47: at most ten downloads are in progress at any moment, whatever the interleaving of their single steps.
- `C47_fine_schedule_independent` (Props/Fetching; p c q): C47: it does not matter that downloads are many steps: however the checks, requests and single writes of the downloads are interleaved, when they return, the table and the files are, for each package, what downloading it alone gives, and nothing else.
- `C47_fine_progress` (Props/Fetching; p c q): C47: the finely interleaved downloads never get stuck: unless the program died, some step is possible until they return.

### C48 DESCRIPTION stamping preserves the file — partial

Stamping a DESCRIPTION replaces or appends only the pkgr lines, keeps all other lines in order, and is idempotent. *Over:* all DESCRIPTION texts.

*Model and proof:* `Model/Install.lean` on `Model/Fs.lean`: `Install`, `InstallThroughBinary`, the cache lookup and the DESCRIPTION stamp as file-system transformers that keep every intermediate state; R is an oracle constrained by a contract stated in `Spec/Install.lean`.

- `C48_other_lines_partial` (Props/Install; p q): C48: the three pkgr lines are at the end and say what they should; nothing else in the result mentions them; and all lines that are neither about pkgr nor about the repository are kept, in order.
- `C48_idempotent` (Props/Install; p q): C48: stamping again with the same data changes nothing.
- `C48_violated_dropped` (Props/Install; p q): C48 does not hold in full: a line that merely mentions the marker text is deleted, whatever field it belongs to.
- `C48_violated_url` (Props/Install; p): C48 does not hold in full: an original repository given as a URL is cut at its second colon, so the original value is lost.
- `C48_violated_accumulates` (Props/Install; p): C48 does not hold in full: stamping with one repository and then another accumulates OriginalRepository lines.
- `C48_installed` (Props/InstallMore; p q): C48, installations: when the package was installed (exit code 0, no error), the last R call installed it into the library, and the DESCRIPTION it wrote is in the library with pkgr's stamp: pkgr's version, the repository and its URL, and the type, which is `binary` when a cached binary was installed and the type of the package otherwise.
- `C48_repository` (Props/InstallMore; p c q): C48: after stamping, every line that gives the repository gives the one the package was taken from.
- `C48_original_kept_partial` (Props/InstallMore; p q): C48: the repository a DESCRIPTION named before is kept as the original one, when its name contains no colon.

### C49 Rollback restores the library — partial

If an installation fails with rollback enabled, then after rollback the library holds exactly what it held before the run. *Over:* all libraries, plans, subsets of packages installed before the failure.

*Model and proof:* `Model/Rollback.lean`: `rInstall` as phases over a `World` that records every state of the file system; every I/O operation may fail, R/downloads/queue are oracles limited to what C43/C90 justify. Frame lemmas per phase, composed.

- `C49_made_is_removed` (Props/Rollback; p q): C49, for a library that the run itself has made: if an installation fails with rollback enabled and no I/O error occurs, then after the run the library is gone, with everything in it (R's lock directories included).
- `C49_restored_partial` (Props/Rollback; p c q): C49, for libraries in order: if an installation fails with rollback enabled and no I/O error occurs, then after the run every file and directory of the library (R's lock directories aside) is what it was before.
- `C49_violated_stray` (Props/Rollback; p q): C49 does not hold for a library in disorder: a directory without (readable) DESCRIPTION that bears the name of a planned package is deleted by the rollback, although it was there before the run.
- `C49_violated_stale_backup` (Props/Rollback; p q): C49 does not hold when a backup is left over from a killed run: the rollback then installs the left-over backup instead of the version that was there before the run.
- `C49_violated_dead_download` (Props/Rollback; p q): C49 does not hold when the run dies while downloading (a missing local package file, for example): every package set aside has left its place.

### C50 Packages outside the plan are never touched — proved

At every moment of a run with rollback and backup deletion, every directory of the library that is neither planned, a tarball, nor a backup of one is unchanged. *Over:* all libraries, plans, outcomes, crash points.

*Model and proof:* `Model/Rollback.lean`: `rInstall` as phases over a `World` that records every state of the file system; every I/O operation may fail, R/downloads/queue are oracles limited to what C43/C90 justify. Frame lemmas per phase, composed.

- `C50_outside_untouched` (Props/Rollback; p c q): C50: in every state that the file system goes through, whatever fails (I/O errors included) and wherever the process dies, everything in the library whose name is not that of a planned package, of the backup of one, or of an R lock is unchanged.
- `C50_queue_of_installer` (Props/Rollback; p q): The installer modelled in C43 is such a queue: each installation it makes, started in a state of the queue, leads to a state of the queue.

### C51 No crash loses an old version — partial

At every crash point of a run before backups are deleted, for every package that was being updated, either the old directory or its backup is intact. *Over:* all libraries, plans, crash points.

*Model and proof:* as `Rollback`.

- `C51_no_loss_partial` (Props/Rollback2; p c q): C51, when no rename that sets a package aside fails: at every moment of the run until the backups are deleted, the rollback included, every package of the plan that was in the library is either untouched at its place (and there is no backup) or complete in its backup, whatever else fails and wherever the process dies.
- `C51_until_rollback_partial` (Props/Rollback2; p c q): C51 with arbitrary I/O errors, until the rollback begins: every package of the plan that was in the library and is not overwritten by a tarball is untouched at its place or complete in its backup.
- `C51_violated_rename_fault` (Props/Rollback2; p q): C51 does not hold when setting a package aside fails (the error is only logged): the installer then leaves the old version alone, but if anything else fails the rollback deletes it, and no backup exists.

### C52 A failed rollback keeps the backups — partial

If restoring a package fails, its backup survives the run. *Over:* all fault patterns.

*Model and proof:* as `Rollback`.

- `C52_violated` (Props/Rollback2; p q): C52 does not hold: when renaming a backup to its place fails, the rollback stops there, and then the backups are deleted all the same. The first package set aside is lost altogether, and of the others no backup is left.
- `C52_violated_removal` (Props/Rollback2; p q): C52 does not hold either when a package that the failed run has brought in cannot be removed: the rollback stops there, no package that was set aside is restored - each is left as the failed run left it, for example missing -, and all backups are deleted.
- `C52_before_deletion_partial` (Props/Rollback2; p c q): C52, as far as it holds: until the very end of the run, where the backups are deleted, a package that is not back at its place (because a removal or a rename of the rollback failed, or because the process died before it was restored) is complete in its backup. Missing: the deletion itself, see `C52_violated`.

### C53 A package that is both outdated and given as a tarball is restored — partial

Rollback restores a package that is both outdated and overwritten by a tarball. *Over:* all libraries.

*Model and proof:* as `Rollback`.

- `C53_noUpdate_partial` (Props/Rollback2; p c q): C53, as far as it holds: with `NoUpdate`, a failed run leaves the library as it was even if packages given as tarballs are outdated. Missing: without `NoUpdate`, see `C53_violated`.
- `C53_violated` (Props/Rollback2; p q): C53 does not hold: a package that is outdated and given as a tarball is set aside once, but the rollback restores it twice: the second time it deletes the restored version and finds no backup.

### C54 Failure is visible in the exit status — partial

If any installation fails the command's exit status is non-zero. *Over:* all outcomes.

*Model and proof:* as `Rollback`, for runs with rollback switched off.

- `C54_tarball_partial` (Props/NoRollback; p q): C54 for tarballs: when R fails on a tarball that is there, the run does not report success.
- `C54_reported_partial` (Props/NoRollback; p q): C54, what holds: a run that does not report failure had no failure: the downloads that it made succeeded, the queue that it started afterwards reported no error, and then every tarball was installed without error, one after the other.
- `C54_violated` (Props/Rollback2; p q): C54 does not hold: when the installation queue reports an error (and nothing kills the process), the exit status is 0.

### C55 Strict mode never creates a library — proved

With Strict, a missing library aborts before any change; without it the library is created. *Over:* all file systems.

*Model and proof:* as `Rollback`.

- `C55_strict` (Props/Rollback2; p q): C55: with `Strict` and no library, the command dies without any change to the file system.
- `C55_asked_iff_missing` (Props/Rollback2; p): C55: the plan asks for a library exactly if there is none (see `Model/Plan.lean`).
- `C55_created` (Props/Rollback2; p c q): C55: without `Strict`, a missing library is created: after a run that reports no failure it is a directory.
- `C55_goes_on` (Props/Rollback2; p q): C55: without `Strict`, when a library is to be created and cannot be, the command dies without any change; when it can be, the directory is the first thing that changes, and the run goes on: it does not die if the downloads succeed, the installation of the planned packages ends and there are no tarballs.

### C56 NoUpdate keeps installed versions — proved

With NoUpdate no installed package is replaced by a planned one. *Over:* all libraries and plans.

*Model and proof:* as `Rollback`.

- `C56_noUpdate` (Props/Rollback2; p c q): C56: with `NoUpdate`, an installed package that is not given as a tarball is the same in every state of the run, whatever happens.

### C57 A second run after success changes nothing — partial

After a successful run with current versions, planning again finds nothing outdated and installing again leaves the library unchanged. *Over:* all libraries and plans.

*Model and proof:* as `Rollback`.

- `C57_nothing_outdated` (Props/Rollback2; p c q): C57: planning again finds no package outdated whose installed version is not older than the offered one.
- `C57_stable_tarballs_partial` (Props/Rollback2; p c q): C57: when every package that the plan takes from the repositories is installed and none of the plan's packages is outdated, a run changes nothing in the library but the packages given as tarballs (and their backups, and R's locks), at any moment and whatever happens.
- `C57_stable_partial` (Props/Rollback2; p c q): C57: when every package of the plan is installed, none of them is outdated and no tarballs are given, a run changes nothing in the library (R's locks aside), at any moment and whatever happens.
- `C57_second_run` (Props/Rollback2; p c q): C57: the second run as a whole. If every directory of the library holds the package it is named after, and every package of the plan is installed in a version not older than the offered one, then a new plan made from this library finds none of its packages outdated, and running it changes nothing in the library (R's locks aside), at any moment and whatever happens.
- `C57_violated_tarball` (Props/Rollback2; p q): C57 does not hold with tarballs: the package of a tarball is set aside and installed again by every run, even if it is installed already.

### C58 Adding packages only inserts lines — partial

Adding packages to the configuration inserts exactly the new entries directly under the Packages key with the indentation of the existing entries, and leaves all other lines unchanged and in order. *Over:* all configuration files.

*Model and proof:* `Model/Config.lean`: the line based edits of `pkgr.yml`; the YAML parser is an oracle. Induction over the lines.

- `C58_inserts` (Props/Config; p q): C58: in a file of ordinary lines with a `Packages:` line and an entry below it (before it may come lines without a dash, such as comments), adding packages inserts directly under the (last) `Packages:` line one entry per package that is not listed yet, indented like the first entry, and changes nothing else.
- `C58_new_section` (Props/Config; p q): C58: without a `Packages:` line a new section is appended.
- `C58_violated_twice` (Props/Config; p q): C58 does not hold for repeated arguments: a package given twice is added twice.
- `C58_violated_crlf` (Props/Config; p): C58 does not hold for files with carriage returns: all other lines are changed too.
- `C58_violated_long_line` (Props/Config; p q): C58 does not hold for a file with a line of 64 KiB or more: that line and everything after it are lost.

### C59 Adding a listed package changes nothing — partial

Adding packages that are all already listed leaves the file unchanged. *Over:* all configuration files.

*Model and proof:* `Model/Config.lean`: the line based edits of `pkgr.yml`; the YAML parser is an oracle. Induction over the lines.

- `C59_unchanged_partial` (Props/Config; p c q): C59: adding only packages that are listed leaves a file of ordinary lines with a `Packages:` line and an entry below it as it is.
- `C59_violated_quoted` (Props/Config; p c q): C59 does not hold when no line begins with `Packages:`, for example when the key is quoted: a second, empty, section is appended.

### C60 Removing a package removes only that package — partial

Removing a package deletes exactly the list entries naming that package and leaves all other lines unchanged. *Over:* all configuration files and names.

*Model and proof:* `Model/Config.lean`: the line based edits of `pkgr.yml`; the YAML parser is an oracle. Induction over the lines.

- `C60_exact_lines` (Props/Config; p q): C60: removing a package from a text file deletes exactly the lines that begin, after spaces, with a dash, a space and the package's name, and leaves all other lines unchanged and in order.
- `C60_only_that_package_partial` (Props/Config; p q): C60, when every line that begins as an entry for `name` is an entry for `name`: exactly these entries are removed.
- `C60_violated_prefix` (Props/Config; p q): C60 does not hold: entries that only begin with the name are removed too, whatever follows (the packages `data.table` for `data`, a repository or customization of that name whose nested lines stay behind).
- `C60_violated_quoted` (Props/Config; p q): C60 does not hold for entries written otherwise: a quoted entry is not removed.
- `C60_several` (Props/ConfigFile; p q): C60: removing several packages deletes exactly the lines that begin as an entry for one of them, whatever the order in which they are given.

### C61 Remove undoes add — partial

Removing a package that was just added to a file without matching entries restores the file; removing twice is the same as once. *Over:* all configuration files and names.

*Model and proof:* `Model/Config.lean`: the line based edits of `pkgr.yml`; the YAML parser is an oracle. Induction over the lines.

- `C61_undo_partial` (Props/Config; p q): C61: removing a package that was just added restores a file in which no line began as an entry for it.
- `C61_violated_new_section` (Props/Config; p): C61 does not hold for a file without `Packages:` line: the appended section stays.
- `C61_idempotent` (Props/Config; p q): C61: removing a package twice is the same as removing it once, for every file content and every name.

### C62 Adding to an empty Packages section is not a crash — partial

Adding packages to a configuration whose Packages list is empty works. *Over:* all configuration files.

*Model and proof:* `Model/Config.lean`: the line based edits of `pkgr.yml`; the YAML parser is an oracle. Induction over the lines.

- `C62_violated` (Props/Config; p q): C62 does not hold: if no list entry follows the `Packages:` line in the whole file (and that line has no dash), adding packages panics.
- `C62_later_entry_partial` (Props/Config; p q): C62, what holds: if some list entry follows anywhere below, in whatever section, an empty `Packages:` section gets the new entries (indented like that entry).

### C63 The build environment is isolated from user libraries — partial

The environment of R processes contains no inherited R_LIBS_USER / R_LIBS_SITE, and the library path is exactly the configured one. *Over:* all system environments and settings.

*Model and proof:* `Model/Env.lean`: name/value lists, construction of R's environment, search path, censoring. List induction; iteration order of maps is an oracle.

- `C63_user_library` (Props/Env; p q): C63. R processes never see an inherited `R_LIBS_USER`: for every inherited environment, every configuration and every package, R_LIBS_USER is the fresh temporary directory.
- `C63_inherited_ignored` (Props/Env; p q): C63. What R processes get does not depend at all on inherited R_LIBS_USER or R_LIBS_SITE settings.
- `C63_site_unset_partial` (Props/Env; p q): C63. Without library paths and without settings in the configuration, R_LIBS_SITE is not set at all, whatever is inherited (under ordinary names).
- `C63_violated_r_libs` (Props/Env; p): C63 fails: R's third library variable, `R_LIBS`, which R puts before the two others, is inherited.
- `C63_violated_equals` (Props/Env; p): C63 fails: a library path with an equals sign in it is dropped, and R_LIBS_SITE is not set at all.

### C64 Package environment settings win — partial

For every variable set in a package's Env customization, the R process sees that value, whatever the system environment. *Over:* all environments.

*Model and proof:* `Model/Env.lean`: name/value lists, construction of R's environment, search path, censoring. List induction; iteration order of maps is an oracle.

- `C64_package_env_wins_partial` (Props/Env; p c q): C64 (partial: values with a blank at an end, and R's two library variables, excepted). Every variable set in the package's customization has that value in the R process, whatever is inherited or set globally, and in whatever order the settings are visited.
- `C64_violated` (Props/Env; p): C64 fails for `R_LIBS_USER`, for values with blanks at an end (they are cut off), and for inherited names with a blank at the end (they are cut off too, and then win).
- `C64_from_config_partial` (Props/EnvMore; p c q): C64 (partial, exceptions as in `C64_package_env_wins_partial`). From the configuration file to R: the last entry of a package under `Customizations` that has an `Env` gives the environment of R for this package, and no entry of another package has an influence on it.

### C65 Secrets never reach the logs or the build — proved

The value of a censored variable inherited from the system never appears in the computed environment. *Over:* all environments.

*Model and proof:* `Model/Env.lean`: name/value lists, construction of R's environment, search path, censoring. List induction; iteration order of maps is an oracle.

- `C65_secrets_hidden` (Props/Env; p c q): C65. The environment that R gets (and that is logged) does not depend on the values of inherited secrets: two inherited environments that differ only there give the same result.

### C66 Other system variables pass through unchanged — partial

Every other non-empty inherited variable is passed to the R process unchanged. *Over:* all environments.

*Model and proof:* `Model/Env.lean`: name/value lists, construction of R's environment, search path, censoring. List induction; iteration order of maps is an oracle.

- `C66_passed_through_partial` (Props/Env; p c q): C66 (partial: values with a blank at an end excepted; the other exceptions are part of the claim). The first inherited setting of a variable that is neither set by the configuration, nor PATH, nor one of R's two library variables, nor a secret, reaches R with the very same value.
- `C66_violated` (Props/Env; p): C66 fails for a value with a blank at an end: it is cut off.
- `C66_violated_letters` (Props/EnvMore; p c q): C66 fails for a variable that is none of the secrets, if its letters have the same upper case: with a dotless i (U+0131) or a long s (U+017F).

### C67 Name/value list laws — proved

Setting then getting a variable returns the set value; removing then getting finds nothing when names are unique; other names are unaffected. *Over:* all lists and names.

*Model and proof:* `Model/Env.lean`: name/value lists, construction of R's environment, search path, censoring. List induction; iteration order of maps is an oracle.

- `C67_get_append` (Props/Env; p): C67. After appending `n = v`, looking up `m` finds what it found before, or else, for `m` the (trimmed) name, the (trimmed) value.
- `C67_append_text` (Props/Env; p): C67. Appending a text `n=v` is the same as appending the pair, if the value has no equals sign.
- `C67_update_others` (Props/Env; p): C67. Updating never touches other names, in whatever list.
- `C67_get_update` (Props/Env; p): C67. Updating a name that is there once sets its value.
- `C67_remove_others` (Props/Env; –): C67. Removing never touches other names.
- `C67_get_remove` (Props/Env; p q): C67. After removing a name that is there at most once, it is not found.
- `C67_get_nvp` (Props/Env; p q): C67. Looking up a pair gives the first one that has exactly this name.
- `C67_get_value` (Props/Env; –): C67. Looking up a value gives the value of the first pair that has exactly this name.

### C68 All configured library paths reach R — partial

The R library path variable passed to R lists exactly the configured library paths in order, for every path. *Over:* all path lists.

*Model and proof:* `Model/Env.lean`: name/value lists, construction of R's environment, search path, censoring. List induction; iteration order of maps is an oracle.

- `C68_library_paths_partial` (Props/Env; p q): C68 (partial: paths with an equals sign, and a blank at the very beginning or end, excepted). R sees exactly the configured library paths, in order, separated by colons, whatever is inherited or customized.
- `C68_split_partial` (Props/Env; p q): C68 (partial). Hence, when no path contains a colon, R splits the variable into exactly the configured paths.
- `C68_violated` (Props/Env; p): C68 fails: with an equals sign in one of the paths, none of them reaches R; a path with a colon reaches it as two.

### C69 Extraction is confined — proved

Extracting an archive only creates files and directories inside the destination, never overwrites an existing file, and creates no links, whatever the archive contains. *Over:* all archives and file systems.

*Model and proof:* `Model/Archive.lean`: extraction as a fold over the archive's entries with a failure oracle; specification says which paths an entry denotes. Induction over the entries.

- `C69_confined` (Props/Archive; p q): C69. Whatever the archive contains, and wherever the extraction fails or is interrupted: outside the destination nothing changes, except that missing parent directories of the destination may have been made.
- `C69_no_overwrite` (Props/Archive; p q): C69. Extracting never overwrites: an entry leaves every file (and directory) that is there as it is, also when two entries have the same name.
- `C69_refused` (Props/Archive; p q): C69. An archive with an entry that leads outside the destination, or is neither a file nor a directory (such as a link), is refused.

### C70 Extraction is exact — proved

If extraction succeeds, every regular-file entry's content is at its path. *Over:* all archives.

*Model and proof:* `Model/Archive.lean`: extraction as a fold over the archive's entries with a failure oracle; specification says which paths an entry denotes. Induction over the entries.

- `C70_exact` (Props/Archive; p q): C70. If the extraction succeeds, every regular file of the archive is at its place with its content, every directory is there, and there is no file in the destination that is not in the archive.

### C71 A partially extracted tarball is not reused — partial

After a failed or interrupted extraction a later run does not use the partial directory. *Over:* all crash points.

*Model and proof:* `Model/Archive.lean`: extraction as a fold over the archive's entries with a failure oracle; specification says which paths an entry denotes. Induction over the entries.

- `C71_violated` (Props/Archive; p q): C71 fails: when writing a file fails (or the run is killed) during the extraction, the next run of the same tarball finds the directory and uses it, with what is missing still missing.
- `C71_violated_interrupted` (Props/Archive; p q): C71 fails in the same way for an interrupted extraction: already the state after the destination was made is taken for a finished extraction.
- `C71_complete_partial` (Props/Archive; p q): C71 (partial). A run that does not find the directory either ends with an error or with a complete extraction, and the next run, if nothing else has changed, uses the same folder and changes nothing.
- `C71_folder` (Props/Archive; p c q): C71: the folder that is used, whether it was there before or has just been unpacked, is a directory directly in the directory of the tarball (named after its digest), and the first such directory in the order of listings.

### C72 Cleaning the cache removes only what was asked — partial

Cleaning the package cache removes exactly the selected kinds under exactly the selected repositories. *Over:* all cache contents and options.

*Model and proof:* `Model/Archive.lean`: removal as file-system transformers; the exact set of removed paths is the specification.

- `C72_exact_partial` (Props/Clean; p c q): C72 (partial). If the cache directory exists and the flags make sense, cleaning removes exactly the files of the selected kinds in the selected repositories, the repository folders with nothing else in them, and the unpacked tarballs of the configuration; everything else is as before. (Partial: unpacked tarballs are removed whatever was selected.)
- `C72_flags` (Props/Clean; p q): C72. Asking for sources only and for binaries only at once is refused, and nothing is removed.
- `C72_violated_crash` (Props/Clean; p q): C72 fails if there is no cache directory yet: the program crashes.
- `C72_violated_tarballs` (Props/Clean; p c q): C72 fails: cleaning the sources of one repository also removes the unpacked tarballs.

### C73 Cleaning package databases is selective — proved

Cleaning package databases removes exactly the database files of the selected repositories. *Over:* all options.

*Model and proof:* `Model/Archive.lean`: removal as file-system transformers; the exact set of removed paths is the specification.

- `C73_exact` (Props/Clean; p q): C73. Cleaning the package databases removes exactly the database files of the selected repositories: a file is gone if and only if it is the database file of a repository whose name was given (or of any one, for `ALL`).

### C74 Tarball cleanup acts on the cache in use — partial

Cleaning tarballs acts on the same cache directory the installer uses, including the default one. *Over:* all configurations.

*Model and proof:* `Model/Archive.lean`: removal as file-system transformers; the exact set of removed paths is the specification.

- `C74_violated` (Props/Clean; p q): C74 fails: with no cache configured, tarballs are unpacked into the default cache directory, but the cleanup looks into the working directory, leaves the unpacked tarball, and removes a directory of that name in the project if there is one.
- `C74_same_partial` (Props/Clean; p q): C74 (partial). With a configured cache directory the cleanup removes exactly the directory the tarball was unpacked to.

### C75 Load report is exact and order independent — partial

The load report counts exactly the failing packages whatever order the sessions finish in. *Over:* all completion orders.

*Model and proof:* `Model/Load.lean`: goroutines, semaphore and result channel as a transition system; invariants and a measure.

- `C75_count` (Props/Load; p c q): C75. Whatever the order in which the sessions end, the number of failures in the finished report is the number of listed packages whose session did not end with status zero.
- `C75_exact_partial` (Props/Load; p c q): C75 (partial). If no package is listed twice: the number of failures is the number of packages that cannot be loaded, and the report has, whatever the order in which the sessions end, for every package the result of its own session and nothing else.
- `C75_violated_duplicates` (Props/Load; p): C75 fails in the presence of duplicates: one package, listed twice, gives two failures.

### C76 Load session bound — proved

At most 2*threads R sessions run at once. *Over:* all schedules.

*Model and proof:* `Model/Load.lean`: goroutines, semaphore and result channel as a transition system; invariants and a measure.

- `C76_sessions` (Props/Load; p c q): C76. At no time in any schedule are more than twice as many R sessions running as there are threads.

### C77 Load always finishes — partial

The load check finishes for every thread setting. *Over:* all settings and schedules.

*Model and proof:* `Model/Load.lean`: goroutines, semaphore and result channel as a transition system; invariants and a measure.

- `C77_finishes_partial` (Props/Load; p c q): C77 (partial). With at least one thread, `load` always finishes: no schedule has more than `4n + 2` steps for `n` packages, no channel operation ever fails, and a state in which nothing more can happen is one in which the report is complete (or the program has ended itself, because R could not be run at all).
- `C77_violated_zero` (Props/Load; p c q): C77 fails: with `threads` zero (which `install` understands as "choose yourself") and a package to load, no step is possible at all: the load check hangs.
- `C77_violated_negative` (Props/Load; p q): C77 fails: a negative number of threads crashes the program.

### C78 Customization lookup — proved

Looking up a package or repository customization returns the first configured entry of that name, and whether any exists. *Over:* all configurations.

*Model and proof:* `Model/Config.lean`: the line based edits of `pkgr.yml`; the YAML parser is an oracle. Induction over the lines.

- `C78_first_entry` (Props/Config; p q): C78: looking up a name finds something exactly if some entry of the list has that name, and then it is the value of the first such entry.

### C79 R executable path — partial

The R executable used is 'R' (on windows 'R.exe') when no path is configured, and otherwise the file the configured path denotes; on windows it ends in .exe; Rscript is the file beside it with 'script' added to the name. *Over:* all settings and platforms.

*Model and proof:* `Model/Env.lean`: R path handling and the parser of `R --version` output on character lists.

- `C79_default` (Props/RSettings; –): C79. Without a configured path, R is `R` (on windows `R.exe`).
- `C79_same_file` (Props/RSettings; p q): C79. With a configured path, the executable denotes, from every directory, the same file as the configured path.
- `C79_windows_exe` (Props/RSettings; p q): C79. On windows the executable always has the extension `.exe`.
- `C79_rscript_sibling` (Props/RSettings; p q): C79. Rscript is the file beside R whose name has `script` added, before the extension `.exe` if there is one.
- `C79_violated_dot` (Props/RSettings; p): C79 fails: a configured path in the current directory, `./R`, becomes `R`, which the system looks up in PATH.

### C80 R version detection — partial

From the output of 'R --version', the version found is the one on the first line starting with 'R version', whatever else is printed. *Over:* all outputs.

*Model and proof:* `Model/Env.lean`: R path handling and the parser of `R --version` output on character lists.

- `C80_version_partial` (Props/RSettings; p q): C80 (partial: outputs with two lines that start with "R version", or a platform line without a platform, excepted). The version found is the one on the line that starts with "R version", whatever other lines are printed before and after it.
- `C80_exact_partial` (Props/RSettings; p q): C80 (partial: outputs with two lines that start with "R version" or with "Platform:", and malformed ones, excepted). Version and platform found are those on the lines that start with "R version" and with "Platform:", whatever other lines are printed before, between and after them.
- `C80_violated` (Props/RSettings; p): C80 fails: with two such lines the last one counts; a development version ("R Under development") gives 0.0.0; and a platform line without a platform is a crash.

### C81 Reported success means installed — partial

When the two-pass installer reports success (exit code 0 and no error), the package is in the target library. *Over:* all libraries, packages, downloads and outcomes of R.

*Model and proof:* `Model/Install.lean` on `Model/Fs.lean`: `Install`, `InstallThroughBinary`, the cache lookup and the DESCRIPTION stamp as file-system transformers that keep every intermediate state; R is an oracle constrained by a contract stated in `Spec/Install.lean`.

- `C81_violated` (Props/Install; p q): C81 does not hold: when the package file is missing, no R process is run, the package is not installed, and the error is nil (so `InstallPackagePlan` counts the package as installed).
- `C81_success_partial` (Props/Install; p q): C81, what does hold: if R keeps its promise that status 0 means installed when it is given a package file of the package, if the downloaded file and a cached binary that is there are such files, then a result with nil error and exit code 0 means that the package's directory is in the library, on every path through the code.

### C82 Packages are fetched from the directory whose index was read — partial

The URL a package is fetched from is the directory of the PACKAGES index it was found in, followed by the file name. *Over:* all repositories, package types and platforms.

*Model and proof:* `Model/Download.lean`: one download as a sequence of file-system states (crash points), all downloads as a transition system with a ten-slot semaphore; servers are an oracle from URLs to answers. Invariants over executions.

- `C82_same_directory_partial` (Props/Download; p): C82: the package file is fetched from the directory whose PACKAGES index was read, for source packages, for repositories without suffix, and on Linux.
- `C82_violated` (Props/Download; p q): C82 does not hold for binary packages on other platforms when the repository has a suffix: the index is read without the suffix, the package is fetched with it.
- `C82_delivered_partial` (Props/Download; p q): C82, the downloads as a whole: a package that was newly downloaded is what the server delivered in the directory whose PACKAGES index was read for the package's type (the platform's default type being settled), under the conditions of `C82_same_directory_partial`.

### C83 A repository's settings come from one entry — partial

When the customizations name a repository more than once, the source type and the URL suffix used for it come from the same entry. *Over:* all configurations and map iteration orders.

*Model and proof:* `Model/Config.lean`, `Model/PkgDb.lean`: from the repository settings of the configuration to the list of repositories.

- `C83_sources_partial` (Props/Repos; p c q): C83, exactly: the source and repository type come from the last entry of that name, the URL suffix from the first; a repository without entries has no settings.
- `C83_one_entry_partial` (Props/Repos; p c q): C83 (partial). For a repository customized once, all settings come from that entry, in every iteration order.
- `C83_violated` (Props/Repos; p c q): C83 fails: with two entries of one name the type is that of the second, the suffix that of the first.

### C84 The configured R comes first in PATH — partial

When the configured R path has a directory, R processes see a PATH that starts with this directory. *Over:* all R paths, inherited environments and configurations.

*Model and proof:* `Model/Env.lean`: name/value lists, construction of R's environment, search path, censoring. List induction; iteration order of maps is an oracle.

- `C84_path_prefix_partial` (Props/Env; p c q): C84 (partial: PATHs that begin with the text of the directory excepted). If the configured R is in the directory `d`, and PATH is inherited and not customized, R processes see `d` followed by the inherited PATH.
- `C84_violated` (Props/Env; p): C84 fails: when PATH begins with another directory whose name merely starts with the same text, R's directory is not added at all.

### C85 Repositories keep their configured order — partial

Repositories are searched in the order of the configuration, in every run. *Over:* all repository lists and map iteration orders.

*Model and proof:* `Model/Config.lean`, `Model/PkgDb.lean`: from the repository settings of the configuration to the list of repositories.

- `C85_order_partial` (Props/Repos; p): C85 (partial: list items with one repository each). The repositories are searched in the order of the file.
- `C85_violated` (Props/Repos; p): C85 fails: two repositories in one list item are searched in either order, from run to run.

### C86 A repository's database is what its index files list — proved

When no young cache file is there, an opened repository offers exactly the packages that its source index lists, and, where the platform has binaries of that kind of repository, those its binary index lists; all configured repositories are there in the configured order, whichever answers first; a repository whose indices are usable does open. *Over:* all repository lists, settings, platforms, index texts, arrival orders.

*Model and proof:* `Model/PkgDb.lean`: opening repositories from index texts through the cache directory.

- `C86_one_repository` (Props/PkgDb; p c q): C86: a repository that is opened without a usable cache file has exactly the packages its indices list, in the source types the platform has; it keeps its name and URL, and its type is the one set for it, else the given one.
- `C86_opens` (Props/PkgDb; p c q): C86: the repository does open when its source index is usable and its binary index, where the platform has binaries, is usable or not there.
- `C86_databases` (Props/PkgDb; p c q): C86: whatever order the repositories answer in, the database has one repository for every configured one, in the same order, each with exactly the packages that its indices list.

### C87 A cached database gives the same answer — partial

Once a repository was opened, every later run within the cache's life time sees the same packages, whatever the network does and whatever was opened in between; a run that is interrupted does not spoil later runs. *Over:* all histories of runs and crash points.

*Model and proof:* `Model/PkgDb.lean`: opening repositories from index texts through the cache directory.

- `C87_same_answer_partial` (Props/PkgDb; p c q): C87 (partial: of the same repository settings, and when the first run got its cache file written to the end). Once a repository was opened from the network, every later run that takes the file for young gets the very same database, whatever the servers answer by then and whatever was opened in between, by runs that also take the file for young.
- `C87_true_cache` (Props/PkgDb; p c q): C87: when the young cache files of the repositories say what these publish (in particular when there are none), opening them, in whatever order they answer, gives what they publish, and leaves cache files that say so: thus every further opening gives the same, as long as what is published does not change.
- `C87_violated_interrupted` (Props/PkgDb; p c q): C87 fails when the run ends while the cache file is written: as long as the file is young, every later run, whatever the servers answer, ends with an error.

### C88 Package customizations decide where a package comes from — partial

A package is taken from the first configured repository that is the one set for it (if one is set) and that offers it in the type set for it (else the default); ignored packages are never obtained; a customization is rejected iff it names an unknown repository or type. *Over:* all configurations and databases.

*Model and proof:* `Model/Config.lean`, `Model/Plan.lean`, `Model/Nexus.lean` composed: from customization entries to the choice of repository and type.

- `C88_choice_partial` (Props/Custom; p q): C88 (partial: one entry per package, a non-empty repository name). What a planned package is taken from is decided by the configuration alone: the first repository, in the order of the configuration, that is the one set for the package, if one is, and that offers it in the type in force; and no ignored package is obtained.
- `C88_downloads_partial` (Props/Custom; p c q): C88 (partial, as above). Every download of a plan is what the configuration chooses for that package.
- `C88_rejected_iff` (Props/Custom; p c q): C88: planning ends with the customization error iff some entry names a repository that is not configured, or a type that is neither of the two words (one entry per package).
- `C88_violated_two_entries` (Props/Custom; p q): C88 fails: two entries of one package, one with the repository and one with the type, are rejected although both can be understood (what one entry does not say is taken from it as the empty word if the other one says it).
- `C88_violated_nameless` (Props/Custom; p): C88 fails: a package set to a repository whose name is empty is taken from another one.

### C89 From configuration and index files to downloads — partial

The packages planned are exactly what the configuration and the published index files require, each downloaded once, from the first configured repository that can supply it, from the directory of the index that lists it, whatever order repositories answer in. *Over:* all projects, index texts, platforms, arrival and iteration orders.

*Model and proof:* composition of `PkgDb`, `Plan`, `Nexus`, `Download` models: from index texts and configuration to the URLs fetched.

- `C89_cache_afterwards` (Props/EndToEnd; p c q): C89 and C87: after the repositories were opened, their cache files say what they publish, so that a later run of the same project, with the same R and as long as the index files are the same, starts with a database cache as C89 supposes.
- `C89_downloads_partial` (Props/EndToEnd; p c q): C89 (partial: an unambiguous configuration, young cache files that say what is published, different cache files for different repositories, no package called R). Whatever order the repositories answer in, every planned download comes from the first configured repository that can supply the package, with the description that this repository's index gives.
- `C89_packages_partial` (Props/EndToEnd; p c q): C89 (partial, as above). The packages of the plan are exactly what has to be installed according to the index files and the configuration, each once, and each is downloaded once.
- `C89_fetched_from_partial` (Props/EndToEnd; p c q): C89 (partial, as above; and without a suffix for binary packages outside Linux). A download is fetched from the directory in which the index that lists it is.
- `C89_violated_suffix` (Props/EndToEnd; p c q): C89 fails outside Linux for binary packages of a repository with a suffix: a planned download is fetched from a directory other than that of the index that lists it.

### C90 The library during a parallel installation — proved

At every moment of a parallel installation, whatever the interleaving of the workers and of the R processes, the library differs from its initial contents only in the directories and locks of planned packages that were not installed at the start; a crash at any moment leaves such a state. *Over:* all plans, worker counts, interleavings, R behaviours within its contract, crash points.

*Model and proof:* `Model/Queue.lean`: the scheduler composed with small file-system steps of each worker and with R processes that may write at any moment; invariants over all interleavings; crash = any reachable state.

- `C90_sequential` (Props/Queue; p q): C90: the steps of one installation, run without interruption and with an R that behaves as the oracle of the sequential model, lead from the beginning exactly to the files and the result that the sequential model (`InstallThroughBinary` as one function, theorems C41-C44 and C81) gives.
- `C90_scheduler` (Props/Queue; p q): C90: whatever the interleaving, every moment of a run of the queue is a moment of the scheduler's executions, so that C33-C40 hold of it.
- `C90_library` (Props/Queue; p c q): C90: at every moment of every run, whatever the interleaving and whatever R does within its contract, the library differs from what it was at the start only in directories (and locks) of planned packages that were not there at the start; in particular a planned package that was there is as it was, and so is everything that is not planned.
- `C90_queue_behaves` (Props/Queue; p c q): C90: so the hypothesis on the queue under which C49-C57 are proved is met by every run of this model.

### C91 Dependencies are in the library while R runs — partial

Whenever an R process builds or installs a package, all packages it depends on, directly or not, are completely installed in the library, whatever the other workers are doing. *Over:* all plans, worker counts, interleavings, R behaviours within its contract.

*Model and proof:* `Model/Queue.lean`: the scheduler composed with small file-system steps of each worker and with R processes that may write at any moment; invariants over all interleavings; crash = any reachable state.

- `C91_dependencies_present_partial` (Props/Queue; p c q): C91: whenever an R process runs for a package (building it or installing it), all its dependencies are completely installed in the library, whatever the interleaving, provided every package file is there and what was in the library at the start was complete.
- `C91_one_process_each` (Props/Queue; p c q): C91, C92: at any moment at most one R process per package and at most as many as there are workers run.
- `C91_violated_missing_file` (Props/Queue; p c q): C91 does not hold either when a dependency's file is missing: `b` is built although `a`, which it needs, is not in the library.

### C92 A run without error leaves every planned package in the library — partial

When the parallel installation returns without an error, every planned package is completely installed in the library. *Over:* all plans, worker counts, interleavings, R behaviours within its contract, file systems.

*Model and proof:* `Model/Queue.lean`: the scheduler composed with small file-system steps of each worker and with R processes that may write at any moment; invariants over all interleavings; crash = any reachable state.

- `C92_all_present_partial` (Props/Queue; p c q): C92: when the run returns without error every package of the plan is completely installed in the library, provided every package file was there and what was in the library at the start was complete.
- `C92_violated_missing_files` (Props/Queue; p c q): C92 does not hold without the package files: a run in which no package file exists returns without an error, and no package is in the library.

### C93 The binary cache holds complete binaries and only grows — partial

A file at a place where later runs look for a cached binary is always a complete binary, and the installation changes nothing else in the cache. *Over:* all plans, interleavings, crash points.

*Model and proof:* `Model/Queue.lean`: the scheduler composed with small file-system steps of each worker and with R processes that may write at any moment; invariants over all interleavings; crash = any reachable state.

- `C93_violated_interrupted` (Props/Queue; p q): C93 does not hold: whenever the updater is about to copy a non-empty binary, the process may be interrupted at a moment that leaves a part of it where every later run looks for the binary of this package, and a later run in which the package is to be installed goes on to install that part.
- `C93_complete_partial` (Props/Queue; p q): C93, what does hold: when the updater has finished copying a binary, the complete content that R built is at the destination, and the original is gone.
- `C93_cache_kept` (Props/Queue; p c q): C93: nothing else outside the library, the temporary directories (and those above them) and R's scratch files is ever changed: package files and other cached binaries stay what they are.

### C94 An interrupted installation is made good — partial

When a run is interrupted at any moment, a later run that ends without an error leaves every planned package completely installed; what the interrupted installation left is not taken for an installed package. *Over:* all plans, interleavings, crash points, R behaviours within its contract.

*Model and proof:* `Model/Queue.lean`: the scheduler composed with small file-system steps of each worker and with R processes that may write at any moment; invariants over all interleavings; crash = any reachable state.

- `C94_violated_leftover_kept` (Props/Queue; p c q): C94 does not hold: whatever is in the directory of a planned package when a run begins - say what an interrupted run has left there - is in it unchanged at every moment of the run. No run ever completes it.
- `C94_violated_interrupted` (Props/Queue; p c q): C94 does not hold: a run that starts from a sound state is interrupted while R installs a package; the next run returns without an error although the package is not complete.
- `C94_next_run_partial` (Props/Queue; p c q): C94, what does hold: if what the interrupted run left in the library is removed first (or is complete), and so are binaries it left half-copied in the cache, a run that returns without an error leaves every package complete; and so does every further run.

### C95 The dependency tree is complete and printing it ends — proved

For every plan, 'inspect --deps --tree' ends and prints, below every selected package, exactly the chains of planned packages in which each needs the next one directly or indirectly, siblings distinct and in alphabetical order. *Over:* all plans, selections and map iteration orders.

*Model and proof:* `Model/Inspect.lean`: the dependency tables, the printed tree, the R command line.

- `C95_tree` (Props/Inspect; p c q): C95: for every plan and every selection of packages the printing of the tree ends (a recursion depth of one more than the number of packages always suffices, and no result depends on it); the tree has one branch for every selected package; the lines below it are exactly the chains of packages that start with it and in which each needs the next, directly or not; and below every branch the names are distinct and in alphabetical order.
- `C95_lines_for_a_chain` (Props/Inspect; p c q): C95: repetition: below a selected package that needs a package, that one another one and so on, every selection of the packages of this chain is a line of its own, so a chain of `n` further packages takes at least `2 ^ n` lines.

### C96 The dependency table shows what is asked for — partial

'inspect --deps' lists for every planned package that needs something all it needs, directly or not; with --reverse for every needed package all that need it; with arguments exactly the named packages; and --tree shows the same relation. *Over:* all plans, selections and map iteration orders.

*Model and proof:* `Model/Inspect.lean`: the dependency tables, the printed tree, the R command line.

- `C96_table` (Props/Inspect; p c q): C96: without arguments the table printed by `inspect --deps` has an entry for exactly the planned packages that need something, listing all they need, directly or not; with `--reverse` for exactly the packages that some planned package needs, listing all those that need it. Lists are alphabetical, without repetition.
- `C96_named` (Props/Inspect; p q): C96: with arguments exactly the named packages are printed, each with its entry of the table or, if it has none, `null`.
- `C96_violated_reverse_tree` (Props/Inspect; p c q): C96 is violated for `--reverse --tree`: with named packages, the tree shows the same with and without `--reverse`, namely what they need, not what needs them.

### C97 load --all loads every planned package — partial

'load --all' tries to load every package of the plan, each once, and every tarball package; without --all exactly the configured packages. *Over:* all configurations, repositories and iteration orders.

*Model and proof:* `Model/Inspect.lean`: the dependency tables, the printed tree, the R command line.

- `C97_loaded` (Props/Inspect; p): C97: `load --all` loads every planned package, each once (and every tarball), when planning succeeds; without `--all` exactly the configured packages.
- `C97_violated_missing` (Props/Inspect; p q): C97 is violated when a configured package cannot be obtained: `load --all` then loads nothing at all, where it should load the packages of the configuration.

### C98 Every installed package is attributed to one installer — proved

Of the packages in the library, exactly those whose DESCRIPTION carries a pkgr version are reported as installed by pkgr, all others as not; each package is reported once. *Over:* all libraries and map iteration orders.

*Model and proof:* `Model/Inspect.lean`: the dependency tables, the printed tree, the R command line.

- `C98_installers` (Props/Inspect; p c q): C98: of the installed packages, those whose DESCRIPTION says which version of pkgr installed them are reported as pkgr's, all others as not pkgr's; every installed package is reported exactly once.

### C99 R's command line says what the settings say — proved

The arguments of R CMD INSTALL are exactly the options that are switched on, one --library argument with the library verbatim, and the file; different settings give different command lines; the building pass names only the temporary library, the installing passes only the target library and never --build. *Over:* all settings, library names and files.

*Model and proof:* `Model/Inspect.lean`: the dependency tables, the printed tree, the R command line.

- `C99_command_line` (Props/Inspect; p q): C99: the arguments of R are exactly `--vanilla CMD INSTALL`, the option of every switch that is on, the library as one argument, and the file, whatever characters the library's name has; different switches or libraries give different arguments.
- `C99_passes` (Props/Inspect; p q): C99: the passes of an installation: building a binary goes to the temporary directory with the option `--build`, so R is never asked to build into the library; a cached binary and the binary just built are installed into the library without `--build`; no pass names two libraries.
- `C99_default` (Props/Inspect; p): C99: the whole command lines that pkgr uses: source packages keep their source references, install their tests and are installed for one architecture; binaries are installed into the library as they are.

### C100 Environment variables in the configuration — partial

In the configuration text every $NAME and ${NAME} is replaced by the variable's value, once, from left to right, text without dollar signs is unchanged, and a reference never affects another line. *Over:* all texts and environments.

*Model and proof:* `Model/Settings.lean`: `os.Expand`, `~`, library choice, working directories.

- `C100_expansion` (Props/Settings; p c q): C100: the expansion of a text is what the rules say: `$NAME` and `${NAME}` are replaced by the value of the variable, once and from left to right; the rules determine the result for every text.
- `C100_plain_text` (Props/Settings; p c q): C100: a text without dollar signs is not changed.
- `C100_reference` (Props/Settings; p c q): C100: a reference to a variable, with or without braces, after text without dollar signs: the text stays, the reference becomes the value (nothing, if the variable is not set), and the rest is treated in the same way.
- `C100_lines_partial` (Props/Settings; p c q): C100, partial: when every `${` is closed on its line, the lines of the file are expanded one by one; so no reference touches another line. Missing: `${` that is not closed on its line, see `C100_violated_across_lines`.
- `C100_violated_across_lines` (Props/Settings; p): C100 is violated for a `${` that is not closed on its line: the lines up to the next closing brace disappear.

### C101 Home directory in configured paths — proved

In a configured path '~' denotes the home directory and '~/x' the file x in it; other paths are unchanged; '~name' is refused. *Over:* all paths and home directories.

*Model and proof:* `Model/Settings.lean`: `os.Expand`, `~`, library choice, working directories.

- `C101_tilde` (Props/Settings; p q): C101: in a path of the configuration `~` alone denotes the home directory and `~/x` the file `x` in it; a path that does not start with `~` is not changed; `~name` is refused, as is `~` when there is no home directory.

### C102 Which library is used — proved

The library named on the command line, in PKGR_LIBRARY or in the file, the first of these, is used whatever lockfile is configured; otherwise packrat's directory or what renv says; otherwise the run ends. *Over:* all settings.

*Model and proof:* `Model/Settings.lean`: `os.Expand`, `~`, library choice, working directories.

- `C102_named` (Props/Settings; p): C102: a library that is named on the command line, in PKGR_LIBRARY or in the file, the first of these in this order, is used, whatever lockfile is configured.
- `C102_lockfile` (Props/Settings; p): C102: when no library is named, packrat's directory for the platform and version of R is used for a packrat lockfile, what renv says for an renv lockfile, and otherwise the run ends.

### C103 renv is asked about the right project — partial

What renv prints is found exactly, whatever R prints around it, and R and renv are asked in the directory of the configuration file. *Over:* all outputs, working directories and configuration files.

*Model and proof:* `Model/Settings.lean`: `os.Expand`, `~`, library choice, working directories.

- `C103_renv_output` (Props/Settings; p q): C103: what renv prints is found exactly, whatever R prints before and after it (before it, the marker must not occur), whatever characters the library's name has (it is one line).
- `C103_directory_partial` (Props/Settings; p): C103, partial: R and renv are run in the directory of the configuration file, where relative paths are to be understood, if this is the directory in which the program was started. Missing: a configuration file elsewhere, see `C103_violated_directory`.
- `C103_violated_directory` (Props/Settings; p): C103 is violated with `--config`: for a configuration in another directory renv is asked in the directory the program was started in, so for another project's library (and a relative path of R is looked up there, too).

### C104 The Linux distribution is read off os-release — partial

Name, version and code name used for linux binaries are those the os-release file states. *Over:* all os-release files.

*Model and proof:* `Model/Linux.lean`: os-release through the TOML subset that occurs, directory of linux binaries.

- `C104_os_release_partial` (Props/Linux; p c q): C104, partial: for a file of remarks and of settings with distinct names and usual characters, in which quoted values have no equals sign, values without quotes are not empty and remarks do not end in an equals sign, name, version and code name of the distribution are those of the file. Missing: see `C104_violated`.
- `C104_violated` (Props/Linux; p): C104 is violated: a quoted value with an equals sign, as in many URLs, or an empty value makes the whole file unreadable, and so does a remark that ends in an equals sign; a value in single quotes, which os-release allows, keeps its quotes; an escaped dollar sign, which os-release asks for, is no escape of TOML and makes the file unreadable.

### C105 Directory of linux binaries — partial

Linux binaries are looked for under ubuntu/<code name>, centos/<major version> for CentOS and RHEL, and <name>/<version> otherwise, only on distributions known to have binaries. *Over:* all distributions and versions.

*Model and proof:* `Model/Linux.lean`: os-release through the TOML subset that occurs, directory of linux binaries.

- `C105_directory_partial` (Props/Linux; p): C105, partial: the directory of the binaries is `ubuntu/<code name>` on Ubuntu, `centos/<major version>` on CentOS and RHEL with a major version of one digit, and `<name>/<version>` elsewhere. Missing: see `C105_violated_major_version`.
- `C105_violated_major_version` (Props/Linux; –): C105 is violated for a major version of two digits, of which only the first is used, and the program crashes when a CentOS does not say its version.
- `C105_supports_iff` (Props/Linux; p q): C105 (which distributions): every distribution that says its name is taken to support binaries.
- `C105_violated_unknown` (Props/Linux; p): C105 is violated as to the distributions: one that is not in the program's table is treated as supporting binaries.

### C106 Tarballs are unpacked and recorded — proved

For every list of tarballs that unpacks, each package given as a tarball is recorded once, with the folder unpacked from the last tarball of that name, and that folder holds the tarball's complete contents, whatever was unpacked before or after. *Over:* all tarball lists and caches.

*Model and proof:* `Model/Tarballs.lean` on `Model/Archive.lean`.

- `C106_table` (Props/Tarballs; p q): C106: when the configured tarballs could be unpacked, each has a folder in its own directory in the cache, which still holds its DESCRIPTION when all are unpacked; all descriptions are taken into account, in the order of the configuration; and each package that a tarball contains will be installed from the folder of the last configured tarball that contains it.
- `C106_complete` (Props/Tarballs; p q): C106: a tarball whose directory was not in the cache is unpacked completely: after all tarballs are unpacked, every file of it is there with its content.
- `C106_descriptions` (Props/Tarballs; p c q): C106 (the DESCRIPTION files): they are all read, or the program ends.
- `C106_recorded` (Props/TarballsMore; p q): C106: what is recorded for a package given as a tarball denotes, from whatever directory it is used, the folder that was unpacked from the last tarball of the configuration that contains the package, which holds that tarball's DESCRIPTION; and where this tarball came from.
- `C106_installed_from` (Props/TarballsMore; p q): C106: a package given as a tarball is installed by R from the folder recorded for it: R is called for the package and the library with this folder, in the directory that contains it; the installation succeeds exactly if R does; and what is in the file system afterwards is what R has left, but for the DESCRIPTION of the package.

### C107 The order in which tarballs are installed does not matter — partial

Installing the packages given as tarballs ends the same way whatever order the table of tarballs is iterated in: a tarball that needs another one is installed after it. *Over:* all tarball sets and map iteration orders.

*Model and proof:* `Model/Tarballs.lean` on `Model/Archive.lean`.

- `C107_independent_partial` (Props/Tarballs; p q): C107, partial: when no tarball needs the package of another one, the outcome of installing them does not depend on the order in which they are visited; it is a success exactly if all they need is in the library when the last package of the plan is installed. Missing: tarballs that need each other, see `C107_violated`.
- `C107_violated` (Props/Tarballs; p c q): C107 is violated: if the tarball of `a` needs the package `b`, which is not in the library but given by another tarball, there is an order of visiting the tarballs in which the installation fails.

### C108 The reported installation sources add up — partial

For every repository the number reported is the number of planned packages taken from it, the number of tarballs is the number of packages given as tarballs, and the numbers add up to the number of packages required. *Over:* all plans.

*Model and proof:* `Model/Report.lean` on `Model/Plan.lean`.

- `C108_sources_partial` (Props/Report; p c q): C108: for every repository the number of packages reported is the number of planned downloads from repositories of that name (none is reported if there are none), and the number of tarballs is the number of packages given as tarballs; except that a repository called "tarballs" is not counted, see `C108_violated_name`.
- `C108_violated_name` (Props/Report; –): C108 is violated for a repository called "tarballs": its packages are not reported.
- `C108_total_partial` (Props/Report; p c q): C108: when no repository is called "tarballs", the reported numbers add up to the number of packages to be had: every planned package once, and every package given as a tarball.

### C109 The list of packages to install is exact — partial

When some of the planned packages are in the library and others are to be installed, the plan lists exactly those to be installed, with the version and place they are taken from. *Over:* all plans, libraries and map iteration orders.

*Model and proof:* `Model/Report.lean` on `Model/Plan.lean`.

- `C109_listing_partial` (Props/Report; p c q): C109: when no tarballs are given and nothing is updated, then * if none of the planned packages is in the library, or all are, none is listed; * otherwise exactly the planned packages that are not in the library are listed, each once, with the version, repository and type they are taken in.
- `C109_violated_update` (Props/Report; p): C109 is violated: an outdated package that will be updated is not listed among the packages to install ...
- `C109_violated_count` (Props/Report; p): ... and when as many packages are updated as are in the library none is listed at all, although `a` and `c` are to be installed into a library that has `b`.
- `C109_violated_tarball` (Props/Report; p): ... and a tarball's package is listed with the version and repository it would have from a repository (or, if no repository has it, with neither name nor version).

### C110 A run as a whole — proved

When 'pkgr install' reports no failure, every package of the plan is completely installed, packages not to be replaced are untouched, no backup is left and nothing else in the library has changed; when it reports a failure with rollback on, the library is what it was; when it is interrupted before backups are deleted, every package that was installed is at its place or in its backup - provided the library was in order at the start, the downloads delivered the package files and no I/O error occurred. *Over:* all plans, libraries, interleavings of the workers, R behaviours within its contract, crash points.

*Model and proof:* `Model/Rollback.lean` with the installation queue of `Model/Queue.lean` in place of the oracle: the phases are composed with every execution of the queue.

- `C110_success` (Props/WholeRun; p c q): C110: a run of `pkgr install` that reports no failure, with any interleaving of its workers, any order in which maps are iterated and any behaviour of R within its contract, leaves every package of the plan completely installed; those that were installed and are not replaced are as they were; those that are replaced have been taken away in between; no backup is left; and nothing else in the library has changed but R's locks. Supposed: the library was in order, what was in it was complete, no I/O error, the downloads delivered the package files, and the unpacked tarballs are there during the run.
- `C110_failure` (Props/WholeRun; p c q): C110: a run that reports a failure, rollback being on, leaves the library as it was (R's locks aside), with the real queue in any interleaving.
- `C110_interrupted` (Props/WholeRun; p c q): C110: wherever the run is interrupted before the backups are deleted, every package of the plan that was installed is at its place (without a backup) or in its backup, with the real queue in any interleaving and any I/O error but a failing rename.

### C111 Installing twice — proved

After a 'pkgr install' with updates that reported no failure, planning again finds the same packages, none of them outdated, and installing again changes nothing in the library (no tarballs given, the library in order at the start, repositories unchanged). *Over:* all configurations, repositories, libraries, interleavings and map iteration orders.

*Model and proof:* `Model/Plan.lean` + `Model/Rollback.lean` + `Model/Queue.lean`: two consecutive runs.

- `C111_same_packages` (Props/Twice; p c q): C111: the packages of the plan do not depend on what is installed, nor on map orders.
- `C111_second_install` (Props/Twice; p c q): C111: `pkgr install` twice. A plan is made and run with updates on, in any interleaving, and the run reports no failure. Then a plan made from the library as it is now finds no package outdated, and running it changes nothing in the library (R's locks aside), at any moment and whatever happens in it. Supposed: at the start every directory of the library holds the package it is named after, the library is in order, the downloads deliver, there is no I/O error in the first run, what R takes for a complete installation (`Complete`) says the name and no older version than the one offered (and what is there at the start in such a version is complete), and R leaves no DESCRIPTION directly in a lock directory.

### C112 NoRollback keeps what was installed and loses nothing — partial

With NoRollback set, a failed 'pkgr install' undoes nothing: what the installations left in the library stays, every package successfully installed stays installed, and a package that was installed before the run is still installed afterwards, in its old version or a new one. *Over:* all plans, libraries, interleavings, outcomes of R and of the downloads.

*Model and proof:* as `Rollback`, for runs with rollback switched off.

- `C112_nothing_undone` (Props/NoRollback; p q): C112: with `NoRollback`, a run that comes to its end, failed or not, undoes nothing: what the installation queue left in the library is there at the end, the packages of tarballs (installed afterwards), locks and backups aside.
- `C112_installed_stay` (Props/NoRollback; p c q): C112: with `NoRollback`, every package that the queue reported as installed before something else failed is completely installed at the end, in any interleaving (`st` is the moment the queue was started, `s` its end).
- `C112_violated_old_version_lost` (Props/NoRollback; p q): C112 fails for packages that were installed before: an outdated package whose update fails is lost. It was set aside before, nothing has taken its place, and the backup is deleted all the same.

### C113 Contents of the load report — partial

In the report of 'pkgr load' each tested package has a result, whatever the order in which the sessions end: a success iff R could load it (library() ended with status zero), with exactly the path and version R prints for it; and the report's library paths are exactly those R reports. *Over:* all lists of packages, schedules, outputs of R.

*Model and proof:* `Model/Session.lean`: the R processes of `load` and `run`, what is read off their output, where and in which environment they run.

- `C113_report_partial` (Props/Session; p c q): C113 (partial: no package listed twice). In the finished report, whatever the schedule, every package that is tested has a result; it is a success iff `library('p')`, evaluated by the configured R in the given directory and in the environment in which pkgr was started, ends with status zero; what that R printed is in the report (if it prints lines without white space at their ends, numbers in brackets at their beginning, or empty lines); and path and version are those R prints for the package, or said to be unknown if the R that is asked for them fails.
- `C113_libpaths_partial` (Props/Session; p q): C113 (partial). The library paths in the report are those R prints, if it prints one on each row, prints nothing on the error stream, and ends well.
- `C113_libpaths_unknown` (Props/Session; p q): C113: when R fails or prints anything but white space on the error stream, no library paths are given.
- `C113_violated_libpaths` (Props/Session; p): C113 fails: R prints two library paths that are short enough on one row, and then the report has them as one.

### C114 The load check runs where the project is — partial

The R sessions of 'pkgr load' run in the directory of the configuration file, however this file is named on the command line. *Over:* all current directories and values of --config.

*Model and proof:* `Model/Session.lean`: the R processes of `load` and `run`, what is read off their output, where and in which environment they run.

- `C114_directory_partial` (Props/Session; p q): C114 (partial). The R sessions of `pkgr load` run in the directory of the configuration file, if this is `pkgr.yml` in the current directory, another file in the current directory, or a file given by its absolute path.
- `C114_violated_relative` (Props/Session; p q): C114 fails for a configuration file `d/n` given by a relative path: the sessions run in the directory that `d` denotes when followed not from the directory pkgr was started in, but from the directory of the configuration file.
- `C114_violated` (Props/Session; p): C114 fails: `pkgr load --config sub/pkgr.yml` runs R in `sub/sub`.

### C115 The session of pkgr run — partial

'pkgr run' starts the configured R in the project's directory so that packages come from only the configuration's library and R's own, with --pkg in the environment the package is installed with, and reports by its exit status whether R could be started and ended well. *Over:* all configurations, inherited environments, outcomes of R.

*Model and proof:* `Model/Session.lean`: the R processes of `load` and `run`, what is read off their output, where and in which environment they run.

- `C115_session_partial` (Props/Session; p q): C115 (partial: library paths with an equals sign or a blank at an end excepted). `pkgr run` starts the configured R in the project's directory, without any profile, and with the configuration's library as the only site library and an empty user library, whatever the inherited environment and the customizations.
- `C115_package_env_partial` (Props/Session; p c q): C115 (partial, exceptions as in `C64_package_env_wins_partial`). With `--pkg`, every variable in the `Env` of the package's (first) customization has its value in the session.
- `C115_no_package_env` (Props/Session; p c q): C115: without `--pkg`, or for a package without customizations, the session does not depend on the customizations.
- `C115_violated_status` (Props/Session; p): C115 fails: pkgr ends with status 0 whatever becomes of R, even if it cannot be started at all.
- `C115_violated_other_env` (Props/Session; p c q): C115 fails: when a package has two entries with an `Env`, the session has the first, while the package is installed with the last.
- `C115_violated_r_libs` (Props/Session; p): C115 fails: an inherited R_LIBS puts other libraries before the configuration's library.

### C116 add and remove edit the configuration in use — partial

'pkgr add' and 'pkgr remove' edit the configuration file that pkgr uses, however it is named by --config, and 'add --install' installs what the edited file says. *Over:* all current directories and values of --config.

*Model and proof:* `Model/ConfigFile.lean`: which file `add`/`remove` open after the change of directory, and every state of that file while it is written.

- `C116_same_file_partial` (Props/ConfigFile; p q): C116 (partial). `add` and `remove` edit the configuration file that is in use, if this is `pkgr.yml` in the current directory, another file in the current directory, or a file given by its absolute path.
- `C116_violated_relative` (Props/ConfigFile; p q): C116 fails for a configuration file `d/n` given by a relative path: the file that is edited is the one that `d/n` denotes in the directory of the configuration file, not in the directory pkgr was started in.
- `C116_violated` (Props/ConfigFile; p): C116 fails: with `--config sub/pkgr.yml`, `add` fails although this file is fine, and if there is a file `sub/sub/pkgr.yml`, it is that one which is changed.
- `C116_install_reads_edited` (Props/ConfigFile; p): C116: `add --install` installs what the edited file says: the configuration that is read for the installation is the file that has just been edited, however it was named.
- `C116_installs_added_partial` (Props/EditedCmd; p q): C116 and C167: with `add --install`, the file that is read again for the installation lists all given packages, and all that were listed before.

### C117 Configuration edits are all or nothing — partial

At every moment of 'pkgr add' and 'pkgr remove', in particular when they are interrupted, the configuration file has its old or its new content, and no other file changes; a command that fails changes nothing. *Over:* all files, arguments and crash points.

*Model and proof:* `Model/ConfigFile.lean`: which file `add`/`remove` open after the change of directory, and every state of that file while it is written.

- `C117_add_only_that_file` (Props/ConfigFile; p q): C117: `add` changes no file but the one it edits, at no time; and if it does not end well, nothing at all.
- `C117_add_result` (Props/ConfigFile; p q): C117: when `add` ends well, the file has the edited content.
- `C117_remove_only_that_file` (Props/ConfigFile; p q): C117: `remove` changes no file but the one it edits, at no time.
- `C117_remove_result` (Props/ConfigFile; p q): C117: `remove` with several packages, on a file that is there, ends well, and the file has the content that results from removing one after the other.
- `C117_violated_interrupted` (Props/ConfigFile; p q): C117 fails: whenever `add` changes the file, there is a moment at which the file is empty; a run that is interrupted then has lost the configuration.
- `C117_violated_interrupted_remove` (Props/ConfigFile; p q): C117 fails in the same way for `remove`, even if there is nothing to be removed.

### C118 From the repositories to the library — proved

When 'pkgr install' reports no failure, every package of the plan is completely installed whatever the interleaving of the concurrent downloads and of the concurrent installations: the downloader leaves every package file where the installer looks for it, never touches the library, and different packages never share a file in the cache - provided what is in the cache is what it should be, the repositories deliver the rest and R keeps its contract. *Over:* all plans, caches, repositories, interleavings of downloads and of workers, R behaviours within its contract.

*Model and proof:* `Model/Rollback.lean` with `Model/Download.lean` and `Model/Queue.lean` put in for its parameters: the downloads are any execution of the downloader, the queue any execution of the queue; the places of the cache, which C110 supposes, are proved from how both compute them.

- `C118_layout` (Props/RealRun; p c q): C118: the places of the cache are such that the installations do not get into each other's way (what `C90_library`, `C91`, `C92` and `C110` suppose).
- `C118_downloads_spare_library` (Props/RealRun; p c q): C118: at no moment do the downloads touch the library.
- `C118_delivers` (Props/RealRun; p c q): C118: downloads that return leave the files of the packages where the queue looks for them.
- `C118_install` (Props/RealRun; p c q): C118: `pkgr install` from the downloads to the library. The downloads are some execution of the concurrent downloader, the installations some execution of the queue, in any interleaving; what is in the cache is what it should be and the repositories deliver the rest completely. Then a run that reports no failure leaves every package of the plan completely installed; those that were installed and are not replaced are as they were; no backup is left; and nothing else in the library has changed but R's locks.
- `C118_plan` (Props/RealRun; p c q): C118: the plans that pkgr makes name one download for every package they install.

### C119 A package that cannot be obtained is not passed over silently — partial

If nothing could be downloaded for a package of the plan and it is neither installed nor in the cache, the installation ends with an error: it does not report success, the package is not counted as installed, and no package that needs it is installed on top of the gap. *Over:* all plans, contents of library and cache, working directories, interleavings of the workers, R behaviours within its contract.

*Model and proof:* `Model/Queue.lean`: invariants of the queue for a package whose entry in the table of downloads is the zero value; the path is then the working directory of pkgr.

- `C119_reported_partial` (Props/Lost; p c q): C119 (part). If nothing was downloaded for a package of the plan, it is not in the library, and no cached binary could be taken for it, then the queue never returns without an error: for every interleaving, every moment and every R within its contract. What is missing: R is also supposed to leave no regular file in its working directory that has the name of the directory pkgr was started in, because pkgr makes R build that directory in the place of the missing file; the place of the cached binary of a package without a name is supposed to be empty; and that the package is not counted as installed needs more (`C119_not_counted_partial`, `C119_violated_own_directory`).
- `C119_not_counted_partial` (Props/Lost; p c q): C119 (part). If R leaves nothing at all under that name, the package is never counted as installed, its directory does not appear in the library, and no package that needs it is started.
- `C119_violated_own_directory` (Props/Lost; p c q): C119 does not hold when pkgr is started in the directory of a package: for the package `a`, for which nothing was downloaded, R is made to build that directory; `a` is then counted as installed, though it is not in the library, and the run does not end with an error but never ends.

### C120 The log file — partial

Every command writes its log records to the file configured by Logging ('all', or 'install' for 'pkgr install'): appended to what is there, or with 'overwrite' in its place, each record that is shown once and in order, up to the error that ends the command; logging touches no other file. *Over:* all configurations, commands and sequences of records.

*Model and proof:* `Model/Logger.lean`: a command as the sequence of things it says and the points at which it sets the level and opens log files.

- `C120_log_file_partial` (Props/Logger; p q): C120 (partial: not for `plan`, `load`, `run`, `clean cache`, `clean pkgdbs` and `add --install`, and without what is said before the configuration is read). `install`, `inspect`, `add`, `remove` and `clean` append to the configured file, or with `overwrite` fill it anew, one line for every record that is shown, in order, the fatal one that ends the program included, and logging touches no other file.
- `C120_violated_commands` (Props/Logger; p q): C120 fails for five commands: whatever the configuration, whatever they say, they write no log file.
- `C120_no_file` (Props/Logger; p q): C120. Without a configured file, or with one that cannot be written to, nothing is written.
- `C120_violated_add_install` (Props/Logger; p q): C120 fails for `add --install` without a log file for `install`: the file is opened twice, every record of the installation is in it twice, and with `overwrite` the records of the first part of the command are lost.
- `C120_violated_start` (Props/Logger; p q): The records that are shown before the configuration is read are in no log file (here: a warning).

### C121 The log level decides what is shown — proved

With --loglevel, in whatever case the level is written, exactly the records at least as severe as the level are shown, in order; whatever is not a level means info; with --json only fatal records are shown once the configuration was read. *Over:* all words, commands and sequences of records.

*Model and proof:* `Model/Logger.lean`: a command as the sequence of things it says and the points at which it sets the level and opens log files.

- `C121_word` (Props/Logger; p q): C121. The word given with `--loglevel` is understood in whatever case it is written, and whatever is not a level means `info`.
- `C121_shown` (Props/Logger; p q): C121. On the screen the user sees all that is printed and exactly the records at least as severe as the level asked for (with `--json`, after the configuration was read: the fatal ones), in order, until the program ends.
- `C121_shown_add_install` (Props/Logger; p q): C121 for `add --install`, which sets the level again once the file was changed.

### C122 An error that ends pkgr is reported — partial

When pkgr ends because of an error, the error is the last thing it shows. *Over:* all levels, commands and sequences of records.

*Model and proof:* `Model/Logger.lean`: a command as the sequence of things it says and the points at which it sets the level and opens log files.

- `C122_reported_partial` (Props/Logger; p q): C122 (partial: at every level but `panic`). If a record ends pkgr, it is the last thing on the screen.
- `C122_reported_at_start_partial` (Props/Logger; p q): C122, for the records before the configuration is read.
- `C122_violated_panic` (Props/Logger; p q): C122 fails with `--loglevel=panic`: pkgr ends without a word.

### C123 --json prints a JSON document — partial

With --json, the output of 'load' and 'inspect' is the document and nothing else. *Over:* all levels, environments and sequences of records.

*Model and proof:* `Model/Logger.lean`: a command as the sequence of things it says and the points at which it sets the level and opens log files.

- `C123_document_partial` (Props/Logger; p q): C123 (partial: if nothing is printed on the way, and nothing shown before the configuration was read). With `--json` the output of `load` and `inspect` is the document and nothing else, whatever is logged in between.
- `C123_violated_cache` (Props/Logger; p q): C123 fails where there is no user cache directory: the remark of cran/repodb.go:315 is printed into the document.
- `C123_violated_trace` (Props/Logger; p q): C123 fails with `--loglevel=trace`: what was logged before the configuration was read is in front of the document.

### C124 Customizations mean what is written — partial

A customization of a package takes effect whatever the case its keys are written in, as with all other keys of the configuration file, and an entry without settings changes nothing. *Over:* all customization entries, configurations and packages.

*Model and proof:* `Model/RawCustom.lean`: decoding of the entries under Customizations and the look at the raw settings; related to the customizations of Model/Plan by an equation.

- `C124_meant_partial` (Props/RawCustom; p q): C124 (partial: keys written as in the documentation, no entry without settings). The customizations have the effect (`setPlanCustomizations`, of which C28 and C88 speak) of what is written.
- `C124_violated_case` (Props/RawCustom; p q): C124 fails for keys in another case: they are decoded, but never have any effect.
- `C124_violated_null` (Props/RawCustom; p q): C124 fails for an entry without settings: if it is the first one of its package, planning never comes to an end in order; alone, it crashes.

### C125 After cleaning package databases, the next run asks the repositories — proved

Once 'pkgr clean pkgdbs' has come to its end, a later run with the same R knows about each selected repository exactly what it publishes by then, whatever was cached before; databases of repositories that were not selected are left alone. *Over:* all configurations, cached databases, answers of the repositories before and after, schedules.

*Model and proof:* `Model/CleanCmd.lean`: `pkgr clean`, `clean pkgdbs` as wholes - opening the repositories, unpacking, planning, then removing the databases.

- `C125_asks_again` (Props/CleanCmd; p c q): C125: once `pkgr clean pkgdbs` has come to its end, the next run with this R does not know anything about the selected repositories but what they publish by then.
- `C125_next_run` (Props/CleanCmd; p c q): C125 for the whole next run after all databases were cleaned: every configured repository offers what it publishes by then.
- `C125_others` (Props/CleanCmd; p c q): C125 (no more than that): databases of repositories that are not selected stay, if they are young or not of this configuration.

### C126 Cleaning works whatever is cached and reachable — partial

'pkgr clean pkgdbs' removes the databases of the selected repositories whatever is in them, whether or not the repositories can be reached, and whatever packages the configuration asks for. *Over:* all cached databases (also damaged ones), answers of the repositories, configurations.

*Model and proof:* `Model/CleanCmd.lean`: `pkgr clean`, `clean pkgdbs` as wholes - opening the repositories, unpacking, planning, then removing the databases.

- `C126_violated_unreadable` (Props/CleanCmd; p c q): C126 is violated by a young database that cannot be read, as an interrupted run leaves it: `clean pkgdbs`, which would get rid of it, ends at once, and the file stays.
- `C126_violated_offline` (Props/CleanCmd; p c q): C126 is violated without a network: if a single configured repository has no young database, `clean pkgdbs` ends without removing any young one.
- `C126_violated_no_packages` (Props/CleanCmd; p c q): C126 is violated when no packages are configured: planning crashes (C30) before anything is removed.
- `C126_works_partial` (Props/CleanCmd; p c q): C126, as far as it holds: whatever databases are cached, old or young, `clean pkgdbs` does its work if the young ones can be read, the repositories answer, and planning (of packages: there are no tarballs or DESCRIPTION files here) neither meets a wrong customization nor crashes. Packages that are missing do no harm.

### C127 clean --all leaves nothing cached — partial

When 'pkgr clean --all' has come to its end, no package file, no unpacked tarball and no database of a configured repository is left in the caches; without --all, 'pkgr clean' removes nothing. *Over:* all configurations, cache contents, answers of the repositories.

*Model and proof:* `Model/CleanCmd.lean`: `pkgr clean`, `clean pkgdbs` as wholes - opening the repositories, unpacking, planning, then removing the databases.

- `C127_nothing_without_all` (Props/CleanCmd; p q): C127, without `--all`: `pkgr clean` removes nothing (it prints its help).
- `C127_violated_tarballs` (Props/CleanCmd; p c q): C127 is violated by tarballs: cleaning the databases plans an installation, which unpacks them into the cache again, right after their folders were removed.
- `C127_gone_partial` (Props/CleanCmd; p c q): C127, as far as it holds: `pkgr clean --all`, when it comes to its end, has removed every package (source or binary) from the folder of every repository in the cache, whether or not the repository is configured, and the database of every configured one. Left out: folders that have the name of an unpacked tarball.

### C128 The table of downloads is shared safely — proved

Whatever goroutines store, remove and look up in the table of downloads and however they interleave: no two of them access the map at the same time while one changes it; the calls behave as the calls of one goroutine on an ordinary table, in an order that respects which call returned before which was made; a stored download is not lost and is seen by every later lookup; and the goroutines never block each other for ever. *Over:* all programs of calls, all numbers of goroutines, all schedules.

*Model and proof:* `Model/SyncMap.lean`: threads whose calls of Put, Get and Delete take five interleaved steps each, around a reader-writer lock; invariant with the history of the table (linearizability), mutual exclusion, progress under Go's writer preference, and a bound on the number of steps.

- `C128_no_race` (Props/SyncMap; p c q): C128: whatever the threads do and however their steps interleave, no thread is in the middle of an access to the map while another one is in the middle of a change of it.
- `C128_linearizable` (Props/SyncMap; p c q): C128: the calls of all threads behave as the calls of one thread on an ordinary table: there is an order of the calls, in which every call gets the answer of the table, that ends with the table as it is now, and agrees with what was seen: a call that returned before another one was made comes before it.
- `C128_in_order` (Props/SyncMap; p c q): C128: every thread's calls are made and return in the order of its program; when it is finished, all have returned.
- `C128_stored` (Props/SyncMap; p c q): C128: what a thread stores is not lost, whatever the other threads store under other names: when the `Put` has returned, the table has the value, and it still has it at the end.
- `C128_seen` (Props/SyncMap; p c q): C128: a `Get` that is made after a `Put` of its name has returned sees the value (`post` is what was seen after the `Put` had returned; the call of the `Get` is number `j` of its thread).
- `C128_no_deadlock` (Props/SyncMap; p c q): C128: while some thread is not finished, some thread can go on, even though Go lets no new reader in while a writer waits.
- `C128_ends` (Props/SyncMap; p c q): C128: no execution goes on for ever: with `n` threads, it has at most five steps for every call of their programs.

### C129 The traceability matrix check — proved

checkmat ends with status 0 exactly if the matrix is in order: every file it names has a proper relative name and exists, the documentation of every entry not to be skipped carries the entry point's name, no entry point has two entries, and every file of the documentation directory has an entry; what it prints is exactly the list of problems. *Over:* all matrices, file systems and documentation directories.

*Model and proof:* `Model/Valtools.lean`: the validation tools checkmat, filecov (rational numbers for float64) and fmttests as functions of what they read; characterized exactly against `Spec/Valtools.lean`.

- `C129_error` (Props/Valtools; p q): C129: when checkmat ends with status 2: the matrix or the directory cannot be read, or a file cannot be examined.
- `C129_cut_short` (Props/Valtools; p q): C129: when checkmat gives up, because a file cannot be examined or the directory cannot be read, it has printed what it has found by then: every improper name, and every missing file of the entries before.
- `C129_report` (Props/Valtools; p c q): C129: what checkmat reports, when it can examine everything: exactly the problems, and as many as there are lines.
- `C129_status` (Props/Valtools; p c q): C129: checkmat ends with status 0 exactly if everything could be examined and the matrix is in order.

### C130 Coverage figures — proved

filecov reports each file of the profile once, in order, with the percentage of its statements that the tests have run (0 for a file without statements), and as overall coverage the percentage for all statements; with -mod only the names change, to those relative to the module. *Over:* all coverage profiles, module names and directories.

*Model and proof:* `Model/Valtools.lean`: the validation tools checkmat, filecov (rational numbers for float64) and fmttests as functions of what they read; characterized exactly against `Spec/Valtools.lean`.

- `C130_files` (Props/Valtools; p c q): C130: every file of the profile is reported once, in the order of the profile, with the share of its statements that the tests have run, in percent (0 for a file without statements).
- `C130_overall` (Props/Valtools; p c q): C130: the overall coverage is the share of all statements, so the mean of the files' coverage weighted by their statements.
- `C130_full` (Props/Valtools; p c q): C130: the overall coverage is 100 exactly if there are statements and all of them have been run.
- `C130_names` (Props/Valtools; p c q): C130: with `-mod`, the document differs only in the names of the files, which are relative to the module; or nothing is written.
- `C130_written` (Props/Valtools; p c q): C130: when a document is written. A profile that cannot be read: never; without `-mod`: always, and it is the plain one; with `-mod`: if the module's directory and every file that the profile names by its absolute path can be resolved.

### C131 Test summary — partial

fmttests prints a line for each test result in order (passing subtests only if asked for), on the error stream what the failed tests had printed, and ends with status 1 exactly if the run has a fail record, or a skip record without -allow-skips, and with status 2 if a line cannot be understood. *Over:* all test runs and flags.

*Model and proof:* `Model/Valtools.lean`: the validation tools checkmat, filecov (rational numbers for float64) and fmttests as functions of what they read; characterized exactly against `Spec/Valtools.lean`.

- `C131_shown` (Props/Valtools; p c q): C131: the line of every test result is on standard output, and nothing else: in the order of the records, with the last element of the package, the test and the word for its result; passing subtests only with -subtests.
- `C131_counts` (Props/Valtools; p c q): C131: the summary lists the tests of the pass, fail and skip records.
- `C131_failure_output` (Props/Valtools; p c q): C131: the error stream has, for each failure, all that the failed test had printed so far.
- `C131_error` (Props/Valtools; p c q): C131: exit status 2 exactly if the input could not be read, or a line of it not understood.
- `C131_status_partial` (Props/Valtools; p c q): C131, the part that holds: a run that was read and understood ends with status 1 exactly if a named test failed, or one was skipped and -allow-skips is not given; else with status 0. Missing: failures that go test reports for a whole package.
- `C131_violated` (Props/Valtools; p): C131 fails for failures of a whole package (it does not compile, its TestMain fails, it panics or runs into the time limit outside a test): go test reports a "fail" record without a test for it, which is passed over, so the exit status is 0 although the usage message says that any "fail" record gives 1.

### C132 Looking a package up in one repository — partial

Looking a package up in a named repository finds it exactly if that repository offers it in the type in force for the package. *Over:* all databases, packages, repositories and settings.

*Model and proof:* the lookup in one repository characterized with the vocabulary of C12; the key set of all databases by induction over the repositories.

- `C132_from_repo_partial` (Props/NexusMore; p c q): C132, what the lookup in one repository does: the package is obtained from the first repository of that name (any, if none is named) that offers it in the type set for the package, and in that type. Missing: packages for which no type is set (none is ever found).
- `C132_violated` (Props/NexusMore; –): C132 fails for packages without settings: package `a`, which both repositories offer as source, the default type, is found by the ordinary lookup, but not by the lookup in the repository it comes from: the default type is not put in.

### C133 One R for everything — partial

Every R process of a command is of the R that is configured (a tilde in its path expanded), R is asked for its version once for each settings object, which then always says the same, and a command that cannot learn the version ends; renv is asked for its library exactly if the library is left to its lockfile. *Over:* all configurations, lockfiles and answers of R.

*Model and proof:* `Model/RCalls.lean`: the R processes started by `NewConfig` and at the start of a command; every call traced to the configured path.

- `C133_asked_once` (Props/RCalls; p q): C133: the settings know the version that R stated for them, and however often they are asked for it afterwards, this is what they say, without R being run again.
- `C133_no_version` (Props/RCalls; p q): C133: when R cannot be run, or what it prints cannot be understood, the program ends.
- `C133_same_R_partial` (Props/RCalls; p q): C133, partial: unless the configured path starts with a tilde, every process a command starts until it has its settings is of the R that is configured, and the command goes on with that R. Missing: a path with a tilde when the library is that of a lockfile, see `C133_violated_tilde`.
- `C133_renv_asked` (Props/RCalls; p q): C133: renv is asked for its library exactly if a library is to be found and the lockfile is renv's.
- `C133_violated_tilde` (Props/RCalls; p): C133 fails for a path of R that starts with a tilde when the library is left to a lockfile: the tilde is expanded only after R has been run for the first time, so that R is not found and the command ends - although the same path works when a library is given.
- `C133_violated_again` (Props/RCalls; p): C133 fails for an R that states no version the way a release does ("R Under development"): it is asked again and again, and may say something else.

### C134 An interrupted installation can be repeated — partial

After any number of runs of 'pkgr install' that were interrupted, at whatever moments, a further run takes up where they left off: if it fails with rollback on, every package that was installed before the interrupted runs is back at its place as it was; if it reports no failure, no backup of a package is left. *Over:* all libraries, plans, sequences of interrupted runs, crash points and interleavings.

*Model and proof:* `Model/Rollback.lean`: a run on a library in the state in which another was interrupted, with the packages it finds there; by an invariant of single packages over any number of interrupted runs.

- `C134_never_lost_partial` (Props/Retry; p c q): C134, a part: after any number of runs of `pkgr install`, each interrupted at any moment before it deletes backups, an installed package is complete at its place or in its backup, and the next run finds it.
- `C134_retry_failed_partial` (Props/Retry; p c q): C134, a part: when after any number of interrupted runs a run fails with rollback on (and without an I/O error), each package that was installed before all of them is complete at its place or in its backup; and it is at its place, without backup, if the last run set it aside (because it is outdated or replaced by a tarball).
- `C134_retry_ok_partial` (Props/Retry; p q): C134, a part: when a run on a library with backups left over from interrupted runs reports no failure (and no removal fails), no backup is left of the packages it found outdated or replaced by a tarball.
- `C134_violated_leftover` (Props/Retry; p c q): C134 does not hold for a backup whose package the next run does not find outdated (its listing of the library has the new version last): that backup stays, whatever the run does and however it ends.
- `C134_violated_half_deleted` (Props/Retry; p q): C134 does not hold for a run that is killed while it deletes the backups: version 2 of `a` is complete in its place and the backup of version 1 has lost a file. The second run finds version 1 (the backup is listed last) and takes `a` to be outdated; when it fails, the rollback deletes the complete version 2 and puts the incomplete version 1 in its place.

### C135 Options, environment, file, defaults — partial

Each setting of a run is what the command line says about it; if it says nothing, what PKGR_LIBRARY or PKGR_RPATH says (if not empty); then what the configuration file says; then the default. --update prevails over whatever forbids updates, a value that cannot be read ends pkgr, the log level and format follow the same rule, and an option that is not a setting of the file (--config, load --all, load --json, plan --show-deps) counts only if it is given. *Over:* all command lines, environments and configuration files.

*Model and proof:* `Model/Options.lean`: the lookup of a setting among options, environment, file and defaults (viper), its conversion (mapstructure, cast) and the settings of a run; by cases on the sources, and composed with the theorems about runs.

- `C135_in_force` (Props/Options; p c q): C135: the settings of a run are those in force, the command line counting more than the environment, the environment more than the file and the file more than the default; `--update` prevails over whatever forbids updates.
- `C135_refused_iff` (Props/Options; p c q): C135: the settings determine a run unambiguously, and pkgr refuses to run exactly if a value in force cannot be read.
- `C135_option_decides` (Props/Options; p c q): C135: an option that is given and can be read decides, whatever the environment, the file and the defaults are.
- `C135_no_update_given` (Props/Options; p c q): C135 with C56: `--no-update` (without `--update`) keeps every package that is installed and that no configured tarball holds as it is, at every moment of the run, whatever the file says about updates.
- `C135_strict_given` (Props/Options; p c q): C135 with C55: `--strict` forbids creating the library, whatever the file says.
- `C135_library_threads` (Props/Options; p c q): The settings of `Model/Settings.lean` and `Model/Install.lean` are these: the configured library (C102) and the number of workers (C81).
- `C135_own_options_partial` (Props/Options; p c q): C135, what holds of a command's own options (`load --all`, `load --json`, `plan --show-deps`) and of the log: an own option that is given decides, and one that is not given is off if the file has no key of its name; the first time, the level and the format of the log are what the options say. The full claim (the file does not matter) is refuted below.
- `C135_own_options_exact_partial` (Props/Options; p c q): C135, exactly: a command's own option is what the command line says, else what the file says under that name (what is no truth value counts as no), else off. The log's level and format are what the command line says, else the plain log without a level; the second time, in `add --install`, the file is asked too, and without all that the level is `info`.
- `C135_config_partial` (Props/Options; p c q): C135, what holds of `--config`: the file that is read is the one named by the option (`pkgr.yml` if it is not given, see C116); and when it is asked for later (by `load`, and by `add --install`) the answer is the same, if the file has no key `config`.
- `C135_violated_config_key` (Props/Options; p c q): C135 is violated for `--config`: with a key `config` in the file, which is no setting, `add --install` edits `pkgr.yml` but installs what another file says.
- `C135_violated_own_option` (Props/Options; p): C135 is violated for a command's own options: a key of the file that is no setting switches on an option of another command that was not given.
- `C135_violated_loglevel` (Props/Options; p c q): C135 is violated for the log: the level in the file does not count, although nothing else is said about it; but it counts after the configuration is read a second time (`add --install`), in the same run.
- `C135_no_rollback_given` (Props/OptionsRun; p c q): C135 with C112: `--no-rollback` switches the undoing off, whatever the environment and the file say: at the end of a run that is not aborted the library holds what it held at a moment when all configured packages had been tried (apart from backups, locks, and what the configured tarballs install).

### C136 From pkgr.yml to the library — partial

When 'pkgr install' reports no failure, every package that pkgr.yml lists, that its tarballs or the project's DESCRIPTION files require, and everything these need as far as the repositories have it, is in the library in a version not older than the one the repositories publish for the project, and what pkgr.yml gives as tarballs is installed from them; what was there and not older is untouched, and nothing else in the library has changed - whatever order the repositories answer in and however downloads and installations interleave. *Over:* all projects, index texts, caches, libraries, interleavings and map iteration orders, R behaviours within its contract.

*Model and proof:* The models of opening the repositories, planning, downloading, installing and rolling back composed: the plan of a well-posed project is characterized by what is published (C89) and by what is found in the library, which gives the hypotheses of C49, C51, C57 and C118.

- `C136_install_partial` (Props/FromYml; p c q): C136 (partial: an unambiguous configuration, the assumptions of `WellPosed` and `TarballsOK`). `pkgr install`, from the configuration and the index files to the library: the repositories answer in any order, the plan is made from what they publish, the downloads and the installations interleave in any way. If the library was in order, the package cache holds what it should and the repositories deliver the rest, R's exit status can be trusted and there is no I/O error, then a run that reports no failure leaves every wanted package in the library, in a version that is not older than the published one; what was there and was not older is untouched; and nothing else in the library has changed, except R's locks.
- `C136_read_back_partial` (Props/FromYml; p c q): C136 (partial, as above), with the real reader of DESCRIPTION files (C151, C152): R's exit status 0 promises a well written DESCRIPTION with the right name and a version that is not older than the published one, and what is wanted and already in the library is made of fields that can be stamped. Then after a run that reports no failure the next command reads, for every wanted package, its name and such a version.
- `C136_violated_depends` (Props/FromYml; p c q): C136 is violated by `Depends`: what a tarball or the project's DESCRIPTION names there only is not missed. If it was not in the library, it is not there after a run that reports success, whether or not it can be had.
- `C136_no_update_partial` (Props/NoUpdate; p c q): C136 (partial, as `C136_install_partial`), when updates are forbidden: a run that reports no failure leaves every wanted package completely installed, those that were in the library and are not given as tarballs as they were, however old they are; nothing else in the library has changed, except R's locks.

### C137 Running the same project again — partial

After 'pkgr install' reported no failure, running it again for the same project while the repositories publish the same plans the same packages, finds all of them installed and none outdated, and changes nothing in the library at any moment, however the second run goes and whether the cached databases are still young or not. *Over:* all projects, index texts, caches, libraries, interleavings, crash points of the second run.

*Model and proof:* The models of opening the repositories, planning, downloading, installing and rolling back composed: the plan of a well-posed project is characterized by what is published (C89) and by what is found in the library, which gives the hypotheses of C49, C51, C57 and C118.

- `C137_again_partial` (Props/FromYml; p c q): C137 (partial: as C136, and tarballs are installed again each time). Installing again, from the same configuration, when the repositories still publish the same and nobody has touched the library in between (the database cache may have grown old or not): the second plan wants the same packages, finds every one of them installed and none of them outdated, and whatever happens to the second run - it succeeds, it fails, it is interrupted anywhere - nothing in the library is ever changed, except the packages that are given as tarballs, their backups, and R's locks.
- `C137_violated_tarball` (Props/FromYmlMore; p c q): C137 fails with tarballs: whatever comes of the second run, at some moment of it the package that is given as a tarball, and that the first run has installed, is not in the library.

### C138 A project's library survives failures — partial

When 'pkgr install' reports a failure with rollback on, the library is what it was; wherever it is interrupted before backups are deleted, every wanted package that was installed is whole, at its place or in its backup; and at no moment anything changes in the library that is neither a wanted package, a backup of one, nor an R lock. *Over:* all projects, index texts, caches, libraries, interleavings, failures and crash points.

*Model and proof:* The models of opening the repositories, planning, downloading, installing and rolling back composed: the plan of a well-posed project is characterized by what is published (C89) and by what is found in the library, which gives the hypotheses of C49, C51, C57 and C118.

- `C138_failure_partial` (Props/FromYml; p c q): C138 (partial, as C136). `pkgr install`, from the configuration to the library, when something fails: a run that reports a failure, with rollback on and without I/O errors, leaves the library exactly as it was, except for R's locks.
- `C138_interrupted_partial` (Props/FromYml; p c q): C138 (partial, as C136). Wherever the run is interrupted before the backups are deleted, every wanted package that was installed is still in the library, at its place or in its backup, whole. Any I/O error may happen, but a failing rename of a package to its backup.
- `C138_others_partial` (Props/FromYml; p c q): C138 (partial, as C136). In every state that the file system goes through, whatever fails (I/O errors included) and wherever the process dies, everything in the library that is not a wanted package, the backup of one or an R lock is unchanged.
- `C138_violated_rename` (Props/FromYmlMore; p c q): C138 fails with I/O errors: if packages cannot be renamed and the run fails, then the rollback deletes the first wanted package that is outdated; what there was of it is in no backup.
- `C138_no_update_partial` (Props/NoUpdate; p c q): C138 (partial, as `C138_others_partial`), when updates are forbidden: at every moment of the run, whatever fails and wherever it is interrupted, a wanted package that was in the library and is not given as a tarball is as it was.

### C139 A repository that cannot be read is not used — partial

When an index that pkgr needs cannot be connected to, is refused, or cannot be read, the command ends with an error, uses nothing of that repository and leaves no database of it in the cache; otherwise the repository opens. *Over:* all servers' answers, index texts, platforms, caches, arrival orders.

*Model and proof:* The outcomes of opening a repository from the network are characterized by iffs over the servers' answers: the panic of the index parser is located by induction over the records; the rest is case analysis on the two source types and their arrival order.

- `C139_stops` (Props/Opening; p c q): C139: opening a repository from the network stops the program exactly when an index that is asked for cannot be connected to or has a malformed dependency (and nothing unreadable before it).
- `C139_fails` (Props/Opening; p c q): C139: when it is not stopped, it fails exactly when the platform has binaries and neither index can be used.
- `C139_opens` (Props/Opening; p c q): C139: otherwise it opens, unless the cache file cannot be written.
- `C139_nothing_cached` (Props/Opening; p c q): C139: when opening a repository from the network does not succeed, and not for the cache file, then there is no cache file of it afterwards, and those of other repositories are as before.
- `C139_violated_empty` (Props/Opening; p c q): C139 is violated by platforms without binaries: if the only index is refused, the repository opens, without any package, and this is written to the cache.

### C140 Nothing is left in the temporary directory — partial

When the installation of a package has ended, pkgr has left nothing behind in the temporary directory: neither the copy of the package it installed there to build it, nor the binary, nor the directory it made for it. *Over:* all packages, R behaviours, library states, failures.

*Model and proof:* Case analysis over the two R calls of an installation; R is an arbitrary function constrained only by RTidy (it does not remove the temporary directory, and touches it only when told to).

- `C140_copy_removed_partial` (Props/Temp; p q): C140, the part that holds: however the installation goes, when it has returned nothing of the copy of the package that was installed in the temporary directory is left; missing: the directory itself, and the binary built in it (`C140_violated_remains`).
- `C140_violated_remains` (Props/Temp; p q): C140 fails: whenever a package is built, the temporary directory is still there afterwards, with the binary that was built in it and everything else R's build left in it beside the package.
- `C140_violated_user_library` (Props/TempDir; p q): C140 is violated by the user libraries too: whatever is run, the directory made for every single R process stays.

### C141 Several runs may share a package cache — partial

Several pkgr runs may use one package cache at the same time: every package file a run is given is complete, files that are already there are never touched, and a run's downloads end as if it were alone. *Over:* all numbers of runs, files, contents and all interleavings of the checks, requests and single writes.

*Model and proof:* a measure (the steps each download can still make) that every step of the finely interleaved downloads lowers; progress by an invariant: who writes has made the file.

- `C141_bounded` (Props/FetchEnds; p q): C141: several runs over one cache do not hinder each other from ending: all their downloads together make at most four steps each, and one for each character that is delivered.
- `C141_progress` (Props/FetchEnds; p c q): C141: nor do they ever get stuck: as long as one of the downloads has not returned, it can make a step, whatever the others do. (With `C141_bounded`: all of them return.)
- `C141_existing_kept` (Props/Fetching; p q): C141: a package file that is in the cache when the runs begin stays as it is at every moment of all of them; so does everything that is not the destination of one of the downloads.
- `C141_apart_partial` (Props/Fetching; p c q): C141, runs that do not share a file: a download whose destination no other download has ends, whatever the others do, as it would have ended alone, with the same file.
- `C141_settles_partial` (Props/Fetching; p c q): C141, the part that holds: if the servers deliver the same complete content to all downloads of a file (and its directory is there), then once all of them have returned, in whatever way their steps were interleaved, the file is complete, and every one of them was given its path; missing: at the moments in between it may be incomplete, and downloads that have returned already use it (`C141_violated_half_written`, `C141_violated_overwritten`).
- `C141_violated_half_written` (Props/Fetching; p q): C141 fails: whenever two runs need the same package file and it is not in the cache, the second may find the file while the first is still writing it, and use what is there, without contacting the server.
- `C141_violated_overwritten` (Props/Fetching; p q): C141 fails also for the run that downloads the file completely: when both have asked for the file, the second run's download empties the file that the first has just written, and the first returns with it.

### C142 Several runs in one library — partial

Several pkgr runs may work on one library at the same time: what a run has reported as installed is in the library when all of them are over, and what another run has installed is not removed by a run that fails. *Over:* all plans, libraries and interleavings of the runs' installations, rollbacks and clean-ups.

*Model and proof:* `Model/Rollback.lean` with downloads and installations left arbitrary, so that they include what other processes do to the library; the violations put a whole second run in the place of the first run's installations.

- `C142_others_kept_partial` (Props/TwoRuns; p q): C142, as far as it holds: on a library that exists, whatever happened to the library while a run was installing, the run itself - setting packages aside before, its rollback and the deletion of its backups, finished or killed half-way - changes nothing but the packages of its own plan and their backups, so what other runs install beside its plan stays. Missing: packages in the plans of two runs, and libraries that both find missing; see `C142_violated_new`, `C142_violated_library` and `C142_violated_lost`.
- `C142_violated_new` (Props/TwoRuns; p q): C142 does not hold for a package that two runs plan: a run that fails deletes every package of its plan that was not there when it made its plan, also one that another run has installed and reported as installed in the meantime.
- `C142_violated_library` (Props/TwoRuns; p q): C142 does not hold for a library that is missing when two runs begin: each of them creates it, and if one fails, it deletes the whole library, with all that the other has installed.
- `C142_violated_lost` (Props/TwoRuns; p q): C142 does not hold for a package that two runs update: both keep their backups under the same names. Let the run `b` of the same plan do its work while the run `a` is installing (`b` finds its backups already made), and succeed: it deletes the backups. If then `a` fails, its rollback deletes the first outdated package in the version that `b` has installed and has no backup to put in its place: neither the old nor the new version is left.

### C143 Announced updates — partial

The packages announced as to be updated, and their number, are exactly those the installation updates, with the version in the library and the one it will be updated to; with updates switched off none is announced; the number of packages required is the number of packages of the plan. *Over:* all configurations, repositories, libraries and map iteration orders.

*Model and proof:* `Model/Report.lean` on `Model/Plan.lean`; the records are related to the downloads of the plan (C26) and to what a run does (C31, C50).

- `C143_updates_partial` (Props/Announce; p c q): C143, when every outdated package is part of the plan: the packages announced as to be updated, of which `to_update` is the number, are - unless updates are switched off, when there are none - exactly the planned packages that are in the library in an older version than the one that is downloaded; each is announced once, with these two versions. Missing: outdated packages that are not part of the plan, see `C143_violated_not_planned`.
- `C143_violated_not_planned` (Props/Announce; p c q): C143 is violated by outdated packages in the library that are not part of the plan: they are announced as to be updated, and counted, but however the installation goes they are not touched at any moment.
- `C143_required_partial` (Props/Announce; p c q): C143: the number of packages required is the number of planned packages and tarballs, whatever the order the tables are read in, and each counts once if no tarball is of a planned package.
- `C143_violated_twice` (Props/Announce; p): C143 is violated by a tarball of a package that is planned from a repository, too: it counts twice.

### C144 Where each package comes from is reported — partial

For every planned package exactly one record says in which version, from which repository and in which type it will be downloaded, and whether it was asked for or is a dependency; for every tarball one record says where it comes from. *Over:* all configurations, repositories and map iteration orders.

*Model and proof:* `Model/Report.lean` on `Model/Plan.lean`; the records are related to the downloads of the plan (C26) and to what a run does (C31, C50).

- `C144_origins_partial` (Props/Announce; p c q): C144, when no package is asked for twice: every planned package is reported exactly once, with the version, repository and type it is downloaded in, as asked for exactly if it was asked for and as a dependency otherwise. Missing: packages that the configuration lists twice, see `C144_violated_twice`.
- `C144_tarballs` (Props/Announce; p q): C144: every tarball is reported once, with where it comes from and where it is installed from.
- `C144_violated_twice` (Props/Announce; p): C144 is violated when the configuration lists a package twice: it is reported twice.

### C145 The JSON documents that pkgr prints can be read back and say what was found — proved

The document printed by `load --json`, `inspect --deps` and `inspect --installed-from` is well-formed JSON (RFC 8259) whatever package names, paths, versions and R output it contains (quotation marks, backslashes, line breaks, control characters), and a reader gets exactly the values that were to be printed: for `load`, of every package that was to be loaded and of no other whether it could be loaded and what R wrote, and the number of failures; for `inspect --deps`, under each name asked for the alphabetical list of exactly the packages it needs directly or indirectly; for `--installed-from`, each installed package in the list of those installed by pkgr or of the others. Different results are never printed alike. *Over:* for every report, plan, library and text that occurs in them, every order in which loads end and every map iteration order.

*Model and proof:* encoding/json for the values that occur (escapes, indentation, sorted keys, nil slices) and the three documents pkgr prints; an independent reader of JSON texts (RFC 8259) in Spec/Json.lean; structural induction over documents: the reader applied to the printed text gives the document back

- `C145_roundtrip` (Props/Json; p c q): **C145** (any document): whatever values, names and texts with quotation marks, backslashes, line breaks or other control characters it consists of, a document that pkgr prints is well-formed JSON (RFC 8259) and says exactly what was to be printed, in both forms in which pkgr prints (`load`: four blanks, no escapes for HTML; `inspect`: two blanks), and says nothing else.
- `C145_unambiguous` (Props/Json; p c q): **C145** (unambiguous): two documents printed alike are the same document.
- `C145_load` (Props/Json; p c q): **C145** (`load --json`): what is printed is one JSON document; it has the library paths, the R and its version, the number of failures, and under the name of a package all that is known about loading it: its name, version, path, error, what R printed and whether it could be loaded; nothing under the name of a package that was not loaded.
- `C145_load_session` (Props/Json; p c q): **C145** (`load --json`, from the R sessions to the printed document): when all loads are over, in whatever order and however many at a time, the document printed says of every package, and of no other, whether R could load it, says as many failures as there were, and gives what R wrote about the package.
- `C145_inspect` (Props/Json; p c q): **C145** (`inspect --deps`): the document printed lists, under each package of the table and no other name, the packages the table has for it (`null` for a name given on the command line that the table does not have).
- `C145_inspect_plan` (Props/Json; p c q): **C145** (`inspect --deps` for packages named on the command line, from the plan to the printed document): under the name of a planned package with dependencies stands the alphabetical list of exactly the packages it needs, directly or indirectly; `null` under other names given; nothing under names not given.
- `C145_installed_from` (Props/Json; p c q): **C145** (`inspect --installed-from`): the document says which packages pkgr installed and which not; a list that would be empty is `null`.
- `C145_installed_from_library` (Props/Json; p c q): **C145** (`inspect --installed-from`, from the library to the printed document): every package of the library stands in exactly one of the two lists, those that pkgr installed in `pkgr`.
- `C145_load_verbatim` (Props/JsonText; p c q): **C145** (readable): what a session said on its error stream stands in the printed report as it is, between quotation marks after its key, if it consists of characters that JSON does not force to be escaped; `<`, `>` and `&`, which occur in the messages of R, are among those that stand for themselves. Likewise its output.

### C146 Several runs may share the database cache — partial

Any number of runs may open the same repository at the same time, one after the other, or be interrupted at any point: every run that opens it gets a database that the repository published and that was fetched in full (by itself or an earlier run), never a part of one or a mixture of two, and no run fails because another one is using, has used or was interrupted while using the cache. *Over:* for every number of runs, every interleaving of their file operations (stat, remove, create, partial writes, partial reads), every interruption, every cache age setting.

*Model and proof:* the system calls of FetchPackages, Encode and Decode on one database file (names and inodes, truncation, writes at offsets, partial reads) for any number of runs; gob is any code whose cut-off texts do not decode (Spec.DbCode); invariants over all interleavings; concrete interleavings as counterexamples

- `C146_readers_partial` (Props/DbShare; p): **C146** (partial: a complete and fresh file; the full claim is for any state of the cache). Any number of runs that start when the file is complete and that take it for fresh get exactly the database in it, whatever the order of their steps and whichever of them are interrupted; none fails, and the file stays as it is.
- `C146_never_a_part_partial` (Props/DbShare; p c q): **C146** (partial: when no two runs update the file at the same time; any number may read it meanwhile, run one after the other, or be interrupted anywhere). Whenever a run opens the repository, the database it gets is one that the repository published and that was fetched in full, by this run or an earlier one, or one that was in the file completely at the beginning: never a part of a database, or a mixture. The file at the beginning may itself have been left by an interrupted run.
- `C146_violated_mixed` (Props/DbShare; p): C146 fails when two runs update the file at the same time: both fetched all packages of the repository and both ended well, and a later run opens the repository with one package missing.
- `C146_violated_early` (Props/DbShare; p): C146 fails when a run opens the file that another is writing: it ends with an error although the repository is in order and the other run ends well; and when a run was interrupted while writing: up to an hour later the next ends with an error.

### C147 Planning and inspecting change nothing in the library or the project — proved

`pkgr plan` and `pkgr inspect`, and the planning that `load`, `install` and `clean` begin with, change no file of the library, the project or elsewhere, at no moment, even when they fail or are interrupted; they only unpack the configured tarballs into the cache, and what they log changes no other file than the configured log file. *Over:* for every file system, configuration, set of tarballs (also broken or hostile ones) and interruption.

*Model and proof:* the states unpackTarballs goes through and the logging model; induction over the tarballs, using the confinement of extraction (C69)

- `C147_planning` (Props/Looking; p q): **C147**: at every moment of planning, also if it fails or is interrupted, everything that is not in the directory of a configured tarball in the cache is as before, except that directories above these may have been made.
- `C147_library` (Props/Looking; p q): **C147**: in particular, when neither the library (or the project, or any other directory) is in the cache nor the cache in it, it is exactly as before at every moment of planning: no package added, removed or changed, and not even the library made when it is missing. Without tarballs, nothing at all changes.
- `C147_log` (Props/Looking; p): **C147**: what is logged changes no file but the configured log file; `plan` and `load` have none, `inspect` has `Logging.all`.

### C148 Planning ends with a plan or a report, never with a crash — partial

Given opened repositories, planning ends in exactly one way, determined by the configuration, the repositories and the library: a customization that cannot be understood is reported, the requested packages that cannot be obtained are reported, a circular dependency is reported, and otherwise there is a plan; it never crashes. *Over:* for every configuration, repository database, library content and map iteration order.

*Model and proof:* the planning model; every outcome is characterised by a condition on the repositories, the request and the library, from the totality of the resolution and the exact condition for a version comparison to panic

- `C148_outcome_partial` (Props/Outcome; p c q): C148, how planning ends in every case: with the missing packages, with the report of a circular dependency, with a plan - or with a crash, if nothing is requested, or if some installed package that the repositories offer has, there or in the library, a version without a separator. Missing: the two crashes.
- `C148_one_outcome` (Props/Outcome; p c q): C148: the outcome is determined by the situation: of two outcomes that are both right, either both are plans, or they are equal up to the order of the missing packages.
- `C148_violated` (Props/Outcome; p): C148 fails: with package `c` installed in version `2`, every plan for package `c` crashes, although the repository offers `c`; with `2.0` installed, there is a plan.

### C149 A repository that is a directory — partial

A repository given as a directory, absolute or relative to the configuration file, is that directory: its index is src/contrib/PACKAGES in it, a package that is needed is a copy of the file in its src/contrib, a file that is missing or cannot be read is reported, and what was cached for another directory is never taken for it. *Over:* for every file system, configuration directory, repository text, and cache left by other projects.

*Model and proof:* `Model/LocalRepo.lean` replaces the oracles for indices and package files by a file system, a working directory and permissions; the path semantics of C79 and C114; the violations combine it with the database cache (C87) and the package cache (C46)

- `C149_index_partial` (Props/LocalRepo; p q): C149 (partial). A repository given as a directory: the index of a source type is the file one finds by following, from that directory, the rest of the index's URL (`src/contrib/PACKAGES`, or the platform's directory of binaries). If the file can be read, its text is the index; if it is missing, it is reported as such. Missing: a file that is there and cannot be read, and what was cached, see the `violated` theorems.
- `C149_source_index_partial` (Props/LocalRepo; p q): C149 (partial), of the source index: it is `src/contrib/PACKAGES` in the directory.
- `C149_package_partial` (Props/LocalRepo; p q): C149 (partial). The source file of a package of a repository given as a directory, if it has to be fetched, is a copy of the file of that name in `src/contrib` of the directory; if that file is missing or may not be read the run ends. Missing: what is in the cache already, see the `violated` theorems.
- `C149_absolute` (Props/LocalRepo; p q): C149: a repository given by its absolute path is the same directory for all projects; so what is cached for it by one of them is right for the others too.
- `C149_violated_database` (Props/LocalRepo; p c q): C149 is violated by the cache of databases: with one and the same relative path in two projects, the second project gets, for an hour, the packages of the repository of the first; those that are published in its own repository are not found.
- `C149_violated_directory` (Props/LocalRepo; p): C149 is violated by a directory in the place of the package file: the download fails, but leaves an empty file, which the next run takes for the package.
- `C149_violated_package` (Props/LocalRepo; p): C149 is violated by the cache of packages, for ever: what the first project has downloaded is used by the second one in place of the package in its own repository.
- `C149_violated_unreadable` (Props/LocalRepo; p c q): C149 is violated when the index is there and cannot be read (no permission, a directory, or a file where a directory should be): on a platform without binaries the repository opens, without any package and without an error, and this is cached.
- `C149_violated_name` (Props/LocalRepo; p q): C149 is violated for directories whose name begins with `http`: they are taken for servers.

### C150 Temporary directories — partial

Every temporary directory that pkgr makes - the one in which a package is built, and the user library given to an R process, which is to be empty - is new, empty and used by nothing else, however many are made at the same time. *Over:* for every random generator, clock reading, content of the temporary directory.

*Model and proof:* `Model/TempDir.lean` with an arbitrary generator seeded by an arbitrary clock; induction over the directories made

- `C150_name` (Props/TempDir; p q): C150: a temporary directory is directly in the system's directory for temporary files; its name has twelve letters from A to Y.
- `C150_own_partial` (Props/TempDir; p q): C150 (partial). When no reading of the clock is repeated, the generator draws different names and none of them is in use yet, the temporary directories made one after the other are apart from each other, and each is an empty directory, whatever the others are used for later. Missing: readings that are repeated and names in use, see the `violated` theorems.
- `C150_layout_partial` (Props/TempDir; p q): C150: so, when the packages of a run read different times, and the generator draws different names for these, the directories are apart as the theorems about whole runs (C90 - C94, C118) ask for.
- `C150_violated_same_time` (Props/TempDir; p q): C150 is violated when two readings of the clock are the same, whatever the generator: the second installation gets the directory of the first, with everything that is in it.
- `C150_violated_in_use` (Props/TempDir; p q): C150 is violated when a name has been in use before (pkgr never removes its directories): the user library given to R, which is meant to be empty, has the packages that are there.

### C151 Reading a DESCRIPTION or a record of an index — proved

Decoding the text of a DESCRIPTION file, or of a record of an index, gives what its fields say however they are laid out - on one line, continued, with tabs, in any order, with comments, with or without a last newline - and fails exactly for a text that is not a list of fields. *Over:* for every text, every list of fields and every layout of them.

*Model and proof:* `Model/Control.lean`: the paragraph reader of the control library and the decoding of the fields; the specification (`Spec/Control.lean`) says how fields are written and what a field says, never how they are read. Induction over the lines with the state of the reader

- `C151_fields` (Props/Control; p q): C151: decoding the text of a DESCRIPTION, or of a record of an index, gives what its fields say, for every way the fields can be written: the last field of a name counts, other fields and the order of fields do not matter, and nothing after a blank line does.
- `C151_determined` (Props/Control; p q): C151: what the fields say is one thing only.
- `C151_comments` (Props/Control; p): C151: comments, that is lines that begin with #, do not matter, wherever they are.
- `C151_error_iff` (Props/Control; p q): C151: exactly when a text does not decode: when there is no line that names a field, or when, before the blank line that ends the first paragraph, a line that should name a field has no colon.
- `C151_on_one_line` (Props/Control; p q): C151: a list of dependencies written on one line has exactly the items written.
- `C151_one_per_line` (Props/Control; p q): C151: a list of dependencies written with one item on each line, as R and devtools write it, has exactly the items written, however the lines are indented.
- `C151_parsed` (Props/Control; p q): C151: reading a DESCRIPTION with these fields never fails with an error; the program panics iff an item of a dependency field is malformed, and otherwise the description says what the fields say.

### C152 The stamp is read back — partial

After an installation the DESCRIPTION with pkgr's stamp reads as before, in addition with pkgr's version, the type of the installation, the URL and the repository that were written; the next command finds the package in the library and reports it as installed by pkgr; stamping can be repeated. *Over:* for every DESCRIPTION, stamp, library and number of installations.

*Model and proof:* `Model/Install.lean` (the stamp) and `Model/Control.lean` composed: stamping the lines of a list of fields is a list of fields again

- `C152_read_back_partial` (Props/Stamped; p c q): C152: after an installation, reading the stamped DESCRIPTION gives what was written, and in addition pkgr's version, the type of the installation, the URL of the repository, and, if there was a field `Repository`, the repository the package came from; supposed that pkgr's fields and `Repository` take one line and that no other line mentions pkgr's fields.
- `C152_recognised_partial` (Props/Stamped; p c q): C152: a package that pkgr has installed and stamped is found in the library by the next command, with the version of pkgr, the type of the installation and the URL that were written, and it is reported as installed by pkgr; supposed also that the other directories of the library hold the packages they are named after.
- `C152_again_partial` (Props/Stamped; p c q): C152: stamping can be repeated: a stamped DESCRIPTION can be stamped again, by any later version of pkgr.
- `C152_violated_mention` (Props/Stamped; p): C152 is false: a line of the DESCRIPTION that only mentions one of pkgr's fields is deleted, and its continuation lines become part of the field before it: after the installation the package can no longer be read, and every later command that looks at the library panics.
- `C152_violated_blank_line` (Props/Stamped; p): C152 is false: when the DESCRIPTION ends with a blank line, the stamp comes after it and is never read: the package is not recognised as installed by pkgr.
- `C152_harmless_partial` (Props/Written; p c q): C152: stamping does no harm: a directory whose DESCRIPTION is well written is well written after pkgr has stamped it, with the same name and the same version.
- `C152_contract_partial` (Props/Written; p c q): C152: so R's contract, as the theorems about whole runs suppose it, asks nothing of the stamps but that they are plain, if what R's exit status 0 promises is a well written DESCRIPTION.

### C153 An index as repositories publish it — partial

Reading an index, that is records separated by blank lines, with Unix or Windows line ends and any number of blank lines between and after the records, gives exactly its records: for each name the last one that is for the running R and in the main directory. *Over:* for every list of records, every layout, every R version.

*Model and proof:* `Model/RepoDb.lean` with the decoder of `Model/Control.lean` in place of the oracle; the stanzas between double line feeds are the records, by induction over the records and the parity of the newlines

- `C153_loads_iff` (Props/IndexText; p c q): C153: an index of valid records can be used exactly if no dependency in it is malformed and the number of blank lines at its end is not an even number above zero.
- `C153_listed_partial` (Props/IndexText; p c q): C153: an index that can be used lists exactly its records: of the records of a name that are for this R and in the main directory, the last one, whatever the line ends and the number of blank lines between records. (What is missing: an even number of blank lines at the end of the index, see C153_violated_blank_lines.)
- `C153_repository_partial` (Props/IndexText; p c q): C153: a repository whose source index is such a text offers, when it is opened, exactly the source packages that the index records.
- `C153_violated_blank_lines` (Props/IndexText; p c q): C153 is false: an index, however good its records are, that ends with two blank lines, or with any even number of them, cannot be used at all.

### C154 What was built is not built again — proved

After a run that ended without an error the package cache holds, where later runs look for it, a complete binary of every package that the run got as a source package under a usual name and installed; a later run over this cache, into whatever library, builds none of them again: it calls R once for each, with the binary. *Over:* for every plan, interleaving, R within its contract and library of the later run.

*Model and proof:* `Model/Queue.lean`; an invariant of the queue that follows each result with a binary from the worker through the channel to the updater (a failed copy is never counted as done, so a run that returns had none), and one of the later run: while the binaries are there no worker leaves the cached pass

- `C154_left_in_cache` (Props/Once; p c q): C93, C154: when a run has returned without an error, there is a complete binary, where later runs look for it, of every planned package that was not in the library at the start: the one that was there, or the one built in this run.
- `C154_from_cache` (Props/Once; p c q): C154: when a binary of every planned package that is not in the library is where the run looks for it, nothing is built, at no moment of the run, whatever the interleaving: every R process installs the binary that was found. The cached binaries stay where they are.
- `C154_not_built_again` (Props/Once; p c q): C154: when a run has returned without an error, a later run over the same cache - into the same library or another, with any part of the plan - builds no package that the first run had to install.

### C155 An installation in which nothing goes wrong comes to its end — proved

When the package files are there, R succeeds on every package all of whose dependencies are completely installed, and ends, no copy fails, there is room for what is made and the plan has at most 2500 packages plus the number of workers, an installation comes to its end: apart from writing files it takes a bounded number of steps, whatever has happened it is never stuck, and when it has come to rest it has returned without an error and every planned package is completely installed. Likewise the downloads before it: when the cache is in order and the repositories deliver, they always come to their end, and what they leave is what the installation needs. *Over:* for every plan, number of workers, interleaving of workers, requester, updater and R processes, and R within its contract.

*Model and proof:* `Model/Queue.lean`; a measure of the whole system (the measure of the scheduler, and for each worker its position in the installation) that every step but a change of files decreases; an invariant by which no installation is in a failing state, so that every step the scheduler can make is one the composed system can make

- `C155_bounded` (Props/Ends; p c q): C155: whatever happens, however R behaves and whatever fails: apart from the files that R writes and the updater copies, an execution has a bounded number of steps. So unless an R process or a copy goes on for ever, every execution comes to rest.
- `C155_rests` (Props/Ends; p c q): C155: however R behaves and whatever fails, every execution can be continued to one that has come to rest: nothing can happen any more but changes of files (with or without copies that fail).
- `C155_can_finish` (Props/Ends; p c q): C155: an installation in which R does its work and no copy fails is never stuck, whatever has happened so far and in whatever order: it can go on until it returns, without an error and with every planned package completely installed.
- `C155_completes` (Props/Ends; p c q): C155: so when it has come to rest (nothing can happen any more but a change of files, whatever R and the updater do), it has returned without an error and every planned package is completely installed.
- `C155_downloads_end` (Props/EndsWhole; p c q): C155: the downloads come to their end too. If what is in the cache is what it should be and the repositories deliver the rest, then, whatever the order in which the downloads take their steps, they do not end the program; they can go on until they have returned; and an execution of them has a bounded number of steps.
- `C155_from_downloads` (Props/EndsWhole; p c q): C155: downloads and installations, one after the other. The downloads have returned, in whatever order they took their steps; the queue gets what they return; nothing went wrong: the cache was in order, the repositories deliver, R does its work and no copy fails. Then the installations, whatever has happened so far and in whatever order, can go on until the queue has returned without an error and with every planned package completely installed; and when nothing can happen any more but changes of files, that has come about. (Of the files it is supposed that no file stands where a directory has to be made.)

### C156 A downloaded binary is installed as it is — partial

A package that was downloaded as a binary is installed from the downloaded file by a single call of R, without building anything; if that call succeeds, so does the installation. *Over:* for every package, version, repository, platform, library and R.

*Model and proof:* `Model/Download.lean` and `Model/Install.lean`: where a download is stored against where the installer looks for a cached binary; on another platform string, the two passes followed step by step under R's rule for naming what it builds

- `C156_one_call_partial` (Props/AsDownloaded; p q): C156, when R's platform is the one the repository's binaries are made for (macOS and Windows, or a Linux whose R names its platform as expected): a package that was downloaded as a binary is installed by exactly one call of R, on the downloaded file and into the library, nothing is built, the outcome is R's, and no built binary is handed back. Missing: other platforms, see `C156_violated_platform`.
- `C156_violated_platform` (Props/AsDownloaded; p c q): C156 is violated on every Linux whose R names its platform differently (such as `x86_64-redhat-linux-gnu` on a CentOS, or `aarch64-unknown-linux-gnu`): pkgr does not recognise the file it has downloaded, and has R build a binary from it; R, which names what it builds as it always does, succeeds, but pkgr looks for another name. So the installation fails, whatever R does, without a call of R into the library; and as nothing but the temporary directory has changed it fails every time.

### C157 Packages are built against the project's library — partial

Every R process that builds or installs a package has the project's library as its only site library and an empty user library, whatever libraries are inherited or set for the package; it runs with the arguments and in the directory of its pass. *Over:* all libraries, environments, customizations, packages, tarballs and passes.

*Model and proof:* `Model/RProcs.lean` puts the command lines (C99), the environment (C63-C68) and the passes of `Model/Queue.lean` together into processes; what a program's name means for a process is in `Spec/RProcs.lean`

- `C157_same_call` (Props/RProcs; p): C157: the process of a pass is the call that the model of the installation makes: the same working directory, file, library and `--build`.
- `C157_same_call_tarball` (Props/RProcs; p q): C157: the process that installs a tarball is told the project's library and to build, and is given the folder the tarball was unpacked to, in the directory that contains it (the call of `C106_installed_from`).
- `C157_project_library_partial` (Props/RProcs; p q): C157, for packages of repositories (and libraries whose path has no equals sign or colon in it, and no blank at its end): the R that builds a package and the one that installs what was built have the project's library as their only site library, and an empty directory as the user's, whatever is inherited and whatever the configuration sets. Missing: tarballs and binaries from the cache, see `C157_violated_tarball`, `C157_violated_cached`.
- `C157_violated_tarball` (Props/RProcs; p q): C157 is violated for tarballs: the R that builds one has no R_LIBS_SITE, so it also finds packages in the site libraries that are R's default (as on Debian), whatever the project's library is.
- `C157_violated_cached` (Props/RProcs; p q): C157 is violated for binaries from the cache in the same way.

### C158 Every R process is the configured R — partial

All R processes of a command - asking for the version, building, installing, tarballs, load, run - execute the same file: the one that the configured path denotes in the project, or the R found in PATH. *Over:* all R paths, directories, packages and commands.

*Model and proof:* `Model/RProcs.lean` puts the command lines (C99), the environment (C63-C68) and the passes of `Model/Queue.lean` together into processes; what a program's name means for a process is in `Spec/RProcs.lean`

- `C158_absolute_partial` (Props/RProcs; p q): C158, for an R that is configured by its absolute path: every R process of every command - the question for the version, each pass of each installation, each tarball, `load` and `run` - is this file, whatever the directory it runs in. (Not on windows.) Missing: relative paths, see `C158_violated_relative`.
- `C158_name_partial` (Props/RProcs; p): C158: without a configured path (the default is `R`), or with a mere name, every R process is the program of that name found in PATH. (Not on windows.)
- `C158_violated_relative` (Props/RProcs; p c q): C158 is violated for every R that is configured by a relative path (with a slash in it): the question for the version goes to the file it denotes in the project's directory, as does a cached binary's installation, but a package is built with the file of that name in the temporary directory - where there is none - and a tarball with the one in the directory it was unpacked in.
- `C158_question_partial` (Props/RProcs; p q): C158: the question for the version is put to R in the project's directory with the one argument `--version`, and R is given an empty user library and no site library whatever it inherits (the libraries of the project are not yet among the settings).

### C159 Where relative paths lead — partial

A library or cache named in the configuration file is the directory its path denotes from the directory of that file, so the same one wherever pkgr is started; a library named on the command line or in PKGR_LIBRARY is the directory its path denotes where pkgr is started. *Over:* all start directories, configuration files and paths.

*Model and proof:* `Model/Where.lean`: the configuration file, the change of directory and the choice of the library composed; the path semantics of C79

- `C159_from_file` (Props/Where; p q): C159: a library and a cache that are named in the configuration file are the directories that their paths denote in the directory of that file.
- `C159_anywhere` (Props/Where; p): C159: so the library and the cache of a project are the same wherever and in whatever way pkgr is started, if it is with the same configuration file.
- `C159_option_partial` (Props/Where; p q): C159, partial: a library named on the command line or in PKGR_LIBRARY is the directory that its path denotes where pkgr is started, if the path is absolute or the configuration file is in the directory in which pkgr is started. Missing: relative paths and a configuration file elsewhere, see `C159_violated_option`.
- `C159_violated_option` (Props/Where; p q): C159 is violated for every relative path given on the command line or in PKGR_LIBRARY when the configuration file is not in the directory in which pkgr is started: the library is the directory of that name beside the configuration file.

### C160 A package that cannot be loaded is noticed — partial

If 'pkgr load' finds a package that R cannot load, the command says how many there are and ends with a non-zero exit status. *Over:* all packages, schedules, R behaviours and log levels.

*Model and proof:* `Model/LoadEnd.lean` on the transition system of `load` (C75) and the levels of the logger (C121)

- `C160_told_partial` (Props/LoadEnd; p c q): C160, partial: without `--json` and unless only fatal records are asked for, the user is told at the end, whatever the schedule, how many of the listed packages could not be loaded, exactly if there are any. Missing: the exit status, see `C160_violated_status`.
- `C160_violated_status` (Props/LoadEnd; p): C160 is violated: whatever packages cannot be loaded, whatever the schedule, `load` ends with status 0; and with `--json` nothing is said about it outside the report.

### C161 What is in the library does not stop pkgr — partial

For every library, finding what is installed ends with exactly the packages that are there and can be read: a package is found iff a directory of the library has a DESCRIPTION with its name, with what that DESCRIPTION says; directories without DESCRIPTION, files that are not a DESCRIPTION and packages without name or with a field that cannot be read are passed over and do not end the program. *Over:* all libraries and all texts of the DESCRIPTION files in them, whoever installed the packages.

*Model and proof:* Model/LibScan.lean models the scan of the library with the panic of the DESCRIPTION reader kept apart from its errors; the scan is characterised by induction over the directories, exactly when it panics and exactly what it finds, in terms of the written fields (C151, C05); a package with the dependency `R (>= 3)` is the counterexample.

- `C161_panics_iff` (Props/LibScan; p c q): C161: exactly when finding what is installed ends the program: when a DESCRIPTION in the library, whoever wrote it and whatever package it belongs to, names a dependency that cannot be read.
- `C161_panics_written` (Props/LibScan; p c q): C161, the same for a library of DESCRIPTIONs that are written with valid fields, in terms of what is written in them.
- `C161_as_scanned` (Props/LibScan; p): C161: whenever the program goes on, what it works with is the scan that the theorems about plans and runs speak of.
- `C161_found_partial` (Props/LibScan; p c q): C161, as far as it holds: in a library of DESCRIPTIONs with valid fields none of which names a malformed dependency, finding what is installed succeeds, and finds exactly the packages that are there: what is found is in one of the directories, described as its DESCRIPTION says, and every package that is there is found. Directories without DESCRIPTION, files and packages without a name are passed over. Missing: malformed dependencies (`C161_violated`).
- `C161_unreadable_ignored` (Props/LibScan; p): C161: what is found in one directory does not depend on the others being readable: leaving out directories that have no DESCRIPTION, or one that cannot be decoded, changes nothing.
- `C161_violated` (Props/LibScan; p): C161 is false: a package in the library that says `Depends: R (>= 3)` ends the program before anything is planned, also if the package has nothing to do with what is to be installed; with `R (>= 3.0)`, or without that package, both packages, or the other one, are found.

### C162 Planning from the files on — partial

For every library, set of tarballs and DESCRIPTION files, configuration and answer of the repositories, planning ends with a plan or with a report, never with a crash; and the plan is made of what these files say: of the packages that the DESCRIPTIONs in the library describe, the packages that the unpacked tarballs describe, in the order of the configuration, and the listed DESCRIPTION files, while the library stays as it is. *Over:* every content of the library, the cache, the tarballs and the DESCRIPTION files, every configuration, package database and iteration order.

*Model and proof:* Model/PlanFiles.lean models planInstall from the files on, in the order of the code, with panics, reported errors and results kept apart; each reader is related to the two-valued one of C106 and C161, the crash cases are traced to a text with a malformed dependency, the rest is C148; the plan is related to the planning from which C136 to C138 start.

- `C162_as_planned` (Props/PlanFiles; p q): C162: when planning comes to a plan (or any other outcome but the report of a wrong customization), then it was made of what is written: of what the DESCRIPTIONs in the library say, the DESCRIPTIONs of the configured tarballs, unpacked one after the other, and the configured DESCRIPTION files.
- `C162_plan_made` (Props/PlanFiles; p c q): C162: the plan of a project: when planning comes to a plan, with the repositories opened as the project says, then this is the planning from which C136 to C138 start, with the packages that the unpacked tarballs (C106) and the DESCRIPTION files describe, in the file system as it is when planning is over; the library is as it was before.
- `C162_library_crash` (Props/PlanFiles; p c q): C162: a DESCRIPTION in the library that is not sound is the end of every planning, whatever is configured and whatever the repositories offer.
- `C162_ends_partial` (Props/PlanFiles; p c q): C162, as far as it holds: when all the files that are read are sound, planning ends with a report (a repository, a tarball or a DESCRIPTION file that cannot be read, a wrong customization, missing packages, a circular dependency), or with a plan - unless nothing is requested, or some installed package that the repositories offer has, there or in the library, a version without a separator. Missing: files that are not sound (`C162_violated`), and these two cases (C30, C148).
- `C162_crash_partial` (Props/PlanFiles; p c q): C162, the same for the user: when all the files that are read are sound and planning still crashes, then nothing is requested, or some installed package that the repositories offer has, there or in the library, a version without a separator.
- `C162_violated` (Props/PlanFiles; p q): C162 is false: `R (>= 3)`, which R accepts, anywhere in the library, in the DESCRIPTION of a tarball or in a configured DESCRIPTION file crashes the planning of a project that is planned if it is `R (>= 3.0)` in all three.

### C163 Certificates are verified — partial

Unless NoSecure is in force (option --no-secure, or NoSecure in the configuration), every index and every package file that pkgr takes from a repository with an https URL comes over connections whose certificates verify; a certificate that does not verify ends the opening of the repository, and leaves no file of the package, at whatever moment the run ends. *Over:* all networks (servers, certificates, redirects), all repositories, plans, interleavings of the downloads and moments of ending, all sources of the setting.

*Model and proof:* Model/Web.lean models the two HTTP clients over an arbitrary network: parties with or without a valid certificate, redirects, a proxy. An invariant of the finely interleaved downloads says what is in the files at every moment; what a client gets is characterised by trails of redirects, by induction on the number of requests; histories by induction over the runs.

- `C163_packages_partial` (Props/Web; p c q): C163, package files: unless `NoSecure` is in force, whenever the run ends, in whatever way the downloads are interleaved, every file in the cache that was not there before is the file of a package of the plan, and if the repository of this package is on the network, it has (a first part of) what was delivered over connections all of which, where TLS was asked for, were with parties whose certificate verifies; missing: a server that is trusted may redirect to one that needs no certificate (`C163_violated`).
- `C163_refused_partial` (Props/Web; p c q): C163, package files that are refused: if the party that is met at the URL of the package asks for TLS and its certificate does not verify, there is no file of the package at any moment of the downloads, unless there was one before.
- `C163_reported_partial` (Props/Web; p c q): C163, package files that are refused are reported as failures: when the downloads have returned, the package for whose URL the certificate does not verify has no entry in the table of downloaded packages, unless its file was there before.
- `C163_indices_partial` (Props/Web; p c q): C163, indices: unless `NoSecure` is in force, a repository that is opened from the network lists only what indices say that were delivered, completely, over connections all of which, where TLS was asked for, were with parties whose certificate verifies; missing: as above.
- `C163_stops` (Props/Web; p c q): C163: if the certificate of a party that is asked for an index does not verify, the program ends.
- `C163_violated` (Props/Web; p q): C163 is violated by redirects: a trusted server at the https URL of a package may redirect to a URL without TLS; what anybody answers there is the package.

### C164 NoSecure changes nothing but the certificates — partial

With NoSecure no certificate matters; and apart from that it changes nothing: where all certificates verify, a run with NoSecure asks the same servers, by the same way, and gets the same answers as a run without. *Over:* all networks, with and without a proxy in the environment, all requests.

*Model and proof:* Model/Web.lean models the two HTTP clients over an arbitrary network: parties with or without a valid certificate, redirects, a proxy. An invariant of the finely interleaved downloads says what is in the files at every moment; what a client gets is characterised by trails of redirects, by induction on the number of requests; histories by induction over the runs.

- `C164_no_certificate` (Props/Web; p q): C164: with `NoSecure`, no certificate matters: networks in which the same is served give the same.
- `C164_nothing_else_partial` (Props/Web; p c q): C164, the part that holds: where there is no proxy and all certificates verify, `NoSecure` changes nothing; missing: with a proxy it does (`C164_violated`).
- `C164_violated` (Props/Web; p c q): C164 is violated where the environment has a proxy: with `NoSecure` the proxy is not used. Behind a firewall that lets only the proxy through, a repository whose certificates all verify opens without `NoSecure`, and with it the program ends.

### C165 A run that verifies uses nothing unverified — partial

A run in which NoSecure is not in force uses only package files and indices that were delivered over verified connections, whatever runs have filled the caches before. *Over:* all histories of runs, with and without NoSecure, each ended at any moment, in networks that change from run to run.

*Model and proof:* Model/Web.lean models the two HTTP clients over an arbitrary network: parties with or without a valid certificate, redirects, a proxy. An invariant of the finely interleaved downloads says what is in the files at every moment; what a client gets is characterised by trails of redirects, by induction on the number of requests; histories by induction over the runs.

- `C165_history_partial` (Props/Web; p c q): C165, the part that holds: after any number of runs without `NoSecure`, each ended at any moment, every file in the cache was there before the first, or was downloaded by one of them, over verified connections if its repository is on the network; missing: the history may have runs with `NoSecure` (`C165_violated_package`, `C165_violated_index`), and see C163.
- `C165_violated_package` (Props/Web; p q): C165 is violated: what anybody delivered for a package in a run with `NoSecure` is the package in every later run, whether or not it verifies certificates, and whatever the servers say then.
- `C165_violated_index` (Props/Web; p c q): C165 is violated for indices too: what a run with `NoSecure` took for the packages of a repository, every run takes for it that finds the cache file young, whether or not it verifies certificates.

### C166 A tarball is installed from its own content — partial

Whenever pkgr installs a package given as a tarball, in the first run or a later one, R gets a directory with exactly the files of the tarball, with their contents. *Over:* all tarballs, caches, earlier runs and R within its contract.

*Model and proof:* C70 gives the exact content after an unpacking without error, a found directory is left as it is (Model/Archive.lean `untar`); an induction over what happens between the runs; the violation composes C106 (what R is called with) with the next `untar`.

- `C166_own_content_partial` (Props/Contents; p q): C166, the part that holds: as long as unpacking it never failed or was interrupted, and only pkgr changed the directory of the tarball in the cache, a run that unpacks the tarball, or finds it unpacked, has exactly the files of the tarball in that directory; missing: R installs in that directory and may leave files there (`C166_violated`); for failures and interruptions see C71.
- `C166_violated` (Props/Contents; p q): C166 is violated by packages for which R leaves a file in the directory that it installs from (such as an object file, of a package with compiled code): once the tarball is installed, every later run finds its directory, takes it for the tarball and installs from it, with a file that is not in the tarball.

### C167 What add and remove have edited is read back — partial

After 'pkgr add' the configuration file is read as listing the packages listed before, in the same order, and the given ones; after 'pkgr remove' as listing all the others, in the same order; and everything else in the configuration is read as before. *Over:* all configuration files in block style, with comments and blank lines anywhere, all lists of packages, every reader that reads such files as YAML says.

*Model and proof:* the reader (a library) is a parameter with a small contract, Spec/Edited.lean `ReadsLists`: a list under the key can be exchanged for another one, and the key can be added at the end; C58 gives the text after `add`, C60 the lines left by `remove`, which are shown to be a list again; a toy reader is proved to meet the contract.

- `C167_added_partial` (Props/Edited; p q): C167, adding: if the file has a section `Packages` with an entry, then after `add` it is read as listing first the given packages that were not listed before, then those that were, in the same order; and everything else in the configuration is read as before. Missing: an empty section (C62), packages that are given twice (C58), lists in brackets (`C167_violated_brackets`).
- `C167_added_section_partial` (Props/Edited; p q): C167, adding to a file without a section `Packages`: it is read as listing the given packages, and everything else as before.
- `C167_removed_exact_partial` (Props/Edited; p q): C167, removing, exactly: if nothing outside the section `Packages` begins like an entry for the package, then after `remove` the file is read as listing, in the same order, the packages whose names do not begin with the given name; and everything else is read as before.
- `C167_removed_partial` (Props/Edited; p q): C167, removing: if no other listed package's name begins with the given one, and nothing else in the file begins like an entry for it, then after `remove` the file is read as listing the other packages, in the same order, and everything else is read as before. Missing: see `C167_violated`.
- `C167_violated` (Props/Edited; p q): C167 is violated by names that begin alike: when `p` is removed, another package whose name begins with `p` is no longer listed either.
- `C167_violated_brackets` (Props/Edited; p q): C167 is violated by lists in brackets: when a package is added to a file with such a list of packages and with another list somewhere below, the file can no longer be read at all.
- `C167_history_partial` (Props/EditedCmd; p q): C167 for histories: after any sequence of the commands `add` and `remove`, all of which are fine for what is listed by then, all have ended well, no other file has changed, and the configuration is read as listing exactly the packages that should be listed, in order, with everything else as it was read before the first of them. Missing: what `Edit.Fine` excludes (C62, C167_violated).
- `C167_undone_partial` (Props/EditedCmd; p c q): C167: adding packages and removing them again leaves the configuration read as it was.

### C168 A change of the configuration changes no more than it says — proved

The order of the listed packages, and whether one is listed twice, does not matter. Listing more packages, or a further repository behind the others, only adds to the plan: every package planned before is still planned, from the same repository, in the same type and version; what can be planned can still be planned with fewer packages listed, if any is left. A setting of one package does not change where another comes from. What is planned does not depend on what is installed. *Over:* all configurations, repositories, libraries and orders in which tables are gone through.

*Model and proof:* two runs of the model of planning are compared: the customizations are taken apart into what they do to the repositories and to the settings of packages, each monotone or local; the rest is monotonicity of the least closed set of C19 and of the first-repository rule of C12.

- `C168_same` (Props/Changes; p c q): C168, the list of packages: what order they are listed in, and whether one is listed twice, does not matter.
- `C168_more` (Props/Changes; p c q): C168, the list of packages: listing more packages only adds: the new plan has every package of the old one, from the same repository, in the same type and version, and installed after the same packages.
- `C168_fewer` (Props/Changes; p c q): C168, the list of packages: what can be planned can still be planned with fewer packages listed, if any is left that does not ship with R.
- `C168_library` (Props/Changes; p c q): C168, the library: what is planned, where it comes from and in what order it is installed does not depend on what is installed.
- `C168_repository` (Props/Changes; p c q): C168, the list of repositories: a repository that is listed after the others only adds: the new plan has every package of the old one, from the same repository, in the same type and version.
- `C168_customization` (Props/Changes; p c q): C168, customizations: what is set for one package - its repository, its type, its suggested packages - does not change where another package comes from, nor in which type and version.

### C169 What is ignored, bundled or described counts as it says — proved

The more is ignored, the less is planned, and what is still planned comes from where it came from; ignoring what is not in the plan leaves the plan as it is. A tarball or DESCRIPTION file counts as if the packages it asks for (its imports and what it links to; for a DESCRIPTION file, what it suggests as well) had been listed, and more of them only add to the plan. *Over:* all configurations, repositories, tarballs, DESCRIPTION files and orders in which tables are gone through.

*Model and proof:* ignoring commutes with every customization, so two runs differ only in a filter on what can be had; the least closed set is compared in both directions. Tarballs and DESCRIPTION files enter only through the set of requested packages (C29), so the comparison of C168 applies.

- `C169_ignored` (Props/Ignored; p c q): C169, ignoring: the more is ignored, the less is planned: what is planned although more is ignored was planned before, from the same repository, in the same type and version; and it is none of what is ignored.
- `C169_ignored_unplanned` (Props/Ignored; p c q): C169, ignoring: what is not in the plan can be ignored, and the plan is the same: the same packages from the same repositories, in the same types, versions and order.
- `C169_described` (Props/Ignored; p c q): C169, tarballs and DESCRIPTION files: unless suggested packages are asked for everywhere, they count as if what they ask for had been listed.
- `C169_described_least` (Props/Ignored; p c q): C169, tarballs and DESCRIPTION files: in any case nothing is planned for them that is not planned when what they ask for is listed.
- `C169_described_more` (Props/Ignored; p c q): C169, tarballs and DESCRIPTION files: more of them only add to the plan, and they come in any order.

### C170 The order in which the configuration says things — partial

The order of the listed packages, of the ignored ones, of the customizations, of the tarballs and of the DESCRIPTION files does not matter: planning ends in the same way, with the same plan. The order of the repositories matters only for packages that two of them offer. *Over:* all configurations and their reorderings, all repositories, libraries and orders in which tables are gone through.

*Model and proof:* where a package comes from and whether its suggested packages are wanted is determined by its one setting (C88, C28), which a reordering keeps; the outcome of planning is compared for two sets of repositories that resolve every package alike (the comparison of C23, generalized to two of them).

- `C170_order_partial` (Props/AnyOrder; p c q): C170: the order of the listed packages, of the ignored ones, of the customizations, of the tarballs and of the DESCRIPTION files does not matter, and but for customizations neither does it matter whether something is said twice.
- `C170_repositories_partial` (Props/AnyOrder; p c q): C170, repositories: if no two repositories offer the same package, their order does not matter either.
- `C170_violated` (Props/AnyOrder; p): C170 is violated by two customizations of one package: which comes last decides.

### C171 The package cache saves downloads and changes nothing else — partial

Whatever the past of the package cache, the downloads of a run hand the same package files to the installation as they would with an empty cache: a package that is in the cache is the one that would be downloaded now. So a run needs no server for what is cached, and never gets another package because of the cache. *Over:* all pasts of the cache (any number of runs with any packages, servers, outages, interleavings and removals), all packages and all schedules of the present run.

*Model and proof:* the pasts of the cache are an inductive predicate whose steps are the finely interleaved downloads (C47), outages and removals; that every cached file is the published one is an invariant of it, by C45 (one place, one package) and by what each download gives alone; two runs are then compared package by package. The violations are runs constructed for any package.

- `C171_true_partial` (Props/CacheUse; p c q): C171, the cache: after any past without interrupted runs, every package file in the cache is the one that is published at the URL from which the package would be downloaded now.
- `C171_provided_partial` (Props/CacheUse; p c q): C171, what is provided: after any past without interrupted runs, and whichever servers can be reached now, the downloads have the file of a package for the queue exactly if it is in the cache or delivered now, and that file is the published one. Missing: interrupted runs (C46), and changes of the repository's suffix or of the system, see `C171_violated_suffix` and `C171_violated_system`.
- `C171_same_partial` (Props/CacheUse; p c q): C171, the cache changes nothing: if the servers deliver what is published, downloads of the same packages from two caches, each with any past without interrupted runs (say, a full one and an empty one), and in any two interleavings, hand the same files to the queue: the table names the same places and packages, and the contents are the same. Missing: as in `C171_provided_partial`.
- `C171_fit_partial` (Props/CacheUse; p c q): C171, for the whole run: after any past without interrupted runs the cache is fit for an installation (as supposed in C118), if the servers deliver what is published and what is published for the planned packages is those packages.
- `C171_violated_suffix` (Props/CacheUse; p q): C171 is violated when the suffix of a repository is changed: it is part of the URL of a binary, but not of its place in the cache. After a run that downloaded the package, a run with another suffix uses that file as the package, whatever the server delivers for the other suffix; a run with an empty cache gets what the server delivers.
- `C171_violated_system` (Props/CacheUse; p q): C171 is violated when the system is replaced by a newer one, too: a binary is for a distribution of Linux, which is part of its URL, but not of its place in the cache. The new system uses the binary for the old one.

### C172 pkgr install succeeds when nothing goes wrong — partial

When the cache is in order, the repositories deliver, R succeeds on every package whose dependencies are completely installed, no I/O operation fails, nothing stands in the way of what is to be made, the plan has at most 2500 packages plus the number of workers and nobody interrupts the run, then 'pkgr install' reports success: every wanted package is in the library, in a version that is not older than the published one, and so is what was given as a tarball. *Over:* all configurations, repositories, libraries, R processes within this contract, and all schedules of downloads, workers, requester, updater and R processes.

*Model and proof:* the phases of the run are put together: the library and the packages set aside (C12, C118), downloads that have come to rest (C155), the queue that has come to rest (C155), tarballs by induction over them; then C136 says what is in the library

- `C172_plan` (Props/Succeeds; p c q): C172, from the plan on: if nothing goes wrong, the run of a plan reports success, whatever the order in which downloads, workers, requester, updater and R processes take their steps, and maps are iterated.
- `C172_install_partial` (Props/Succeeds; p c q): C172 (partial, as C136: an unambiguous configuration, the assumptions of `WellPosed` and `TarballsOK`). `pkgr install`, from the configuration and the index files to the library, when nothing goes wrong: the cache is in order and the repositories deliver, R succeeds on every package all of whose dependencies are installed, no I/O error, nobody interrupts the run. Then, whatever the order in which the repositories answer and in which downloads, workers, requester, updater and R processes take their steps, the run reports success, and every wanted package is in the library, in a version that is not older than the published one.

### C173 Installing again succeeds, after a failure and after a success — partial

When 'pkgr install' has failed, for whatever reason, with rollback enabled, and the cause is gone, the same command succeeds: given again from the same configuration, with repositories that publish the same, and with nothing going wrong this time, it reports success, and every wanted package is in the library in a version that is not older than the published one, and so is what was given as a tarball. The failed run leaves nothing behind that stands in the way. After a run that succeeded the same command succeeds again, too, and touches nothing in the library but what is given as a tarball. *Over:* all configurations, repositories, libraries, failures of the first run, ages of the database cache, and all schedules of both runs.

*Model and proof:* C137 (nothing but the tarballs is touched), C118 (every wanted package is complete after the first run), and C172 for the second

- `C173_again_partial` (Props/InstallAgain; p c q): C173 (partial: as C137 and C172). A run of `pkgr install` has succeeded. The same command is given again, from the same configuration, when the repositories publish the same and nobody has touched the library in between (the database cache may have grown old or not), and again nothing goes wrong (as in C172). Then it reports success again, the library is still as the configuration says, and nothing in it was changed at any moment but the packages that are given as tarballs, their backups, and R's locks.
- `C173_after_failure_partial` (Props/Repaired; p c q): C173 (partial: as C138 and C172). A run of `pkgr install` has failed, for whatever reason, with rollback on and without I/O errors. The same command is given again, from the same configuration, when the repositories publish the same (the database cache may have grown old or not), and this time nothing goes wrong (as in C172). Then it reports success, and the library is as the configuration says.

### C174 Editing pkgr.yml never takes away what it still asks for — partial

When pkgr.yml is edited so that it says at least what it said before - more packages, more tarballs or DESCRIPTION files, the same settings in any order, further repositories after those that were there, or the same ones in another order if no two publish the same package - then everything that had to be installed before still has to be, from the same repository, in the same type and version; the plan of the new file contains the plan of the old one; and after a successful installation with the new file the library is also as the old file says. The same holds through histories: what a successful run with the old file brought is there after any runs with the new one, whichever of them fail. Two files that say the same in different orders lead to the same packages from the same places. *Over:* all pairs of configurations, repositories, libraries, ages of the database cache, and schedules.

*Model and proof:* the invariant of C175 for both histories; where all later runs failed nothing wanted has changed, else C175 for the second file and C174_wanted/C174_source

- `C174_history_partial` (Props/EditedRounds; p c q): C174 (partial, as C175). Runs with the first pkgr.yml, one of which succeeds; then the file is edited so that it says at least what it said before; then runs with the second one. However many there are of each and whichever of them fail, the library is at the end as the first file says (and, if a run with the second one has succeeded, as that one says, by C175).
- `C174_source` (Props/MoreSaid; p c q): Every package that could be had is still had from the same repository, in the same type and version.
- `C174_wanted` (Props/MoreSaid; p c q): C174: what had to be installed still has to be.
- `C174_planned_partial` (Props/MoreSaid; p c q): C174 (partial: well-posed projects and tarballs as in C136): the plan of the second project has all that the plan of the first one has, from the same repositories, in the same types and versions, whatever is installed and however old the caches are.
- `C174_order_partial` (Props/MoreSaid; p c q): C174, order (partial, as above): when each of the two files says what the other one says, they lead to the same packages from the same places.
- `C174_installed_partial` (Props/MoreSaid; p c q): C174 (partial, as C136): after a successful run with the second pkgr.yml, the library is also as the first one says: what it wants is there, from the same publication, as far as the repositories could supply it.

### C175 Any number of runs — partial

However often 'pkgr install' is run with the same configuration, while the repositories publish the same, and whatever the runs that come to their end report: what one successful run has brought stays, the failures after it take nothing away; what the configuration does not ask for is at the end as it was at the start, and so is every wanted package that was up to date at the start; and the next run succeeds if nothing goes wrong in it. *Over:* all configurations, repositories, libraries, and all histories of runs (each with any schedule, any failure of R, of the downloads or of a tarball, and any age of the database cache).

*Model and proof:* an invariant over the history of runs: the library is in order, the cache says what is published, wanted packages are complete once a run has succeeded; a failed run keeps it by C138 and C49, a successful one by C136, C137 and C118; C172 gives the next run

- `C175_lasting_partial` (Props/Rounds; p c q): C175 (partial: as C136 and C138). After any number of runs of `pkgr install` with the same configuration, each of which came to its end, whether it failed or not, the library is in order; if one of them has succeeded, every wanted package is in the library in a version that is not older than the published one, and so is what was given as a tarball: the failures since then have taken nothing away.
- `C175_untouched_partial` (Props/Rounds; p c q): C175 (partial: as C136 and C138). Whatever these runs did, what the configuration does not ask for is as it was before the first of them (R's locks and the backups of wanted packages aside), and so is every wanted package of the repositories that was there before the first of them in a version that is not older than the published one.
- `C175_next_partial` (Props/Rounds; p c q): C175 (partial: as C172). And whatever these runs did, the next one succeeds if nothing goes wrong in it, and then the library is as the configuration says.

## 5. Modelled code, by Go file

Lean definitions (module.name) with the lines they cite; the comments in the modules say what is simplified.

- `cmd/add.go` — **ConfigFile**: rAdd (48-71), rereadFile (63-65); **Logger**: initCommandLog (73-75), runLogged (48-71); **Options**: Sources.loggingAgain (61-64), Sources.configTextAgain (65)
- `cmd/clean.go` — **CleanCmd**: CleanEnv.clean (53-76), CleanEnv.clean (58); **Logger**: initCommandLog (55), runLogged (53-76)
- `cmd/cleanCache.go` — **Archive**: clearFolder (150-167), foldersToClear (148-205), deleteCacheSubfolders (134-207), reposOption (70-76), cleanKinds (84-99), tarballDir (116), cleanTarball (103-124), cleanCacheFolders (68-127); **Logger**: runLogged (68-71)
- `cmd/cleanPkgdb.go` — **Archive**: removeDb (93-110), removeDbs (93-110), removePackageDatabases (83-114), dbNames (57-70); **CleanCmd**: CleanEnv.namesOf (57-70), CleanEnv.dropDb (94-109), CleanEnv.dropDbs (93-110), CleanEnv.cleanPkgdbs (50-114); **Logger**: runLogged (50-52); **RCalls**: commandStart (87)
- `cmd/descriptionOps.go` — **PlanFiles**: readDescText (24-31), readDescFile (16-24), openDescriptions (10-37); **Tarballs**: unpackDescription (16-33), unpackDescriptions (10-37)
- `cmd/experiment.go` — **Json**: prettyPrint (72-78)
- `cmd/inspect.go` — **Inspect**: recurseDeps (65-74), inspectTable (93-104), inspectSelect (105-112), inspectTree (117-124); **Json**: depsOutput (124-126), installedFromOutput (129-131); **Logger**: initCommandLog (78), runLogged (76); **RCalls**: commandStart (90-91)
- `cmd/install.go` — **Install**: installWorkers (113), InstallReq (106); **Logger**: initInstallLog (276-283), runLogged (55); **RCalls**: commandStart (60-61); **RProcs**: installSettings (60, 117), QEnv.rProc (105-106, 122-131), RunEnv.tarballProc (162-214); **Rollback**: RunEnv.installTarball (190-233), RunEnv.installTarballs (183-269), RunEnv.tag (86-90), RunEnv.phases (99-135), RunEnv.undo (139-147), RunEnd (154-156), RunEnv.body (86-147), RunEnv.ensureLibrary (70-84), RunEnv.rInstall (55-159); **Web**: Computer.online (99); **Where**: libraryUsed (106)
- `cmd/load.go` — **Inspect**: toLoad (90-99); **Json**: loadOutput (189-196); **Load**: SessionEnd (209-223), additionalInfo (258-287), attemptLoad (207-255), loadStart (101-102); **LoadEnd**: loadRecord (137-149), loadSeen (75-78); **Logger**: runLogged (75); **Options**: boundFlag (66-69), Sources.configTextAgain (46), Sources.ownFlag (39-40); **RCalls**: commandStart (42); **Session**: loadProc (291-305), runRCmd (291-313), libraryExpr (209), infoExpr (259), sessionOf (207-287), sessionLibPaths (168-186), loadDirectory (44-60)
- `cmd/plan.go` — **CleanCmd**: CleanEnv.plan (83-259); **Config**: repoSetting (139-153), repoSettingStep (138-155), repoSettings (137-156), repoURL (128-133), repoURLs (126-134); **Inspect**: PlanOutcome.forLoad (233-236); **LibScan**: readLibrary (107); **Logger**: runLogged (67); **Nexus**: RepoDb.drop (170-171), ignorePackages (164-173); **Options**: boundFlag (62-63), Sources.ownFlag (74); **PkgDb**: RepoEnv.newPkgDb (159-162), RepoEnv.openConfigured (126-162); **Plan**: requestStep (188-192), requestAll (186-193), removeBasePackages (329-342), PlanOutcome (216-237), requestedPackages (185-214), planInstall (164-250); **PlanFiles**: planFromFiles (84-250); **RCalls**: commandStart (69-70); **Report**: sourceStep (290-293), installSources (289-300), toInstallListing (308-323), OriginLine (356-381), originLine (359-365), originReport (238, 261, 356-381), tarballReport (253, 344-353), announcedUpdates (266-278), toUpdateCount (265-278, 304), planStatus (280-287); **Web**: Computer.online (159)
- `cmd/remove.go` — **ConfigFile**: removeArgs (51-56), rRemove (40-60); **Logger**: initCommandLog (62-64), runLogged (40-60)
- `cmd/root.go` — **ConfigFile**: editedFile (141); **Install**: cfgThreads (85-86); **LoadEnd**: loadSeen (44-51); **Logger**: LogRun (141), initLogging (111-115), initLogging (118-143); **Options**: boundFlag (68-108), Sources.options (56-60, 118-135), Sources.logging (111-115), Sources.configText (130), Sources.configTextAgain (130); **PlanFiles**: PlanFiles (135-141); **Session**: configFileUsed (135), loadDirectory (141); **Settings**: configuredLibrary (107-108), initActs (118-143); **Where**: projectDir (135-141)
- `cmd/run.go` — **Logger**: runLogged (54); **RCalls**: commandStart (56); **Session**: runSettings (56-65), rRun (54-67)
- `cmd/structs.go` — **Json**: resultJson (36-46), RSessionMetadata (71-75), reportJson (14-18, 71-75); **Load**: LoadResult (36-46), LoadReport (14-18), LoadReport.addResult (28-33)
- `cmd/tarballOps.go` — **Archive**: pickFolder (96-136), untar (51-137); **PlanFiles**: readDescText (35-42), readDescFile (26-35), openTarball (24-45), openTarballs (16-48); **Tarballs**: unpackOne (24-45), unpackTarballs (16-48), unpackStates (16-48)
- `cmd/utils.go` — **Archive**: userCache (16-32); **Install**: getWorkerCount (35-52); **Json**: jsonMarshal (69-76); **Where**: cacheUsed (16-32)
- `configlib/add_package.go` — **Config**: configLines (25-29), lastHeader (69-74), firstEntry (84-90), insertPackages (65-102), addPackages (17-47); **ConfigFile**: editedFile (19-21)
- `configlib/config.go` — **Config**: dropsLine (264-266), removeLoop (259-273), removePackage (249-278); **ConfigFile**: editedFile (240, 250-252), editedFile (186-187); **Env**: setCustomizations (281-291); **Install**: cfgThreads (213-220); **Logger**: LogConfig (59-60); **Options**: boundEnv (177-184), defaultSetting (213-220), Sources.findEarly (177-220), Sources.unmarshal (42); **Plan**: isCustomizationSet (223-236), cfgCustomizationStep (305-314), setCfgCustomizations (305-314), viperStep (316-345), setPlanCustomizations (294-303, 316-345); **RCalls**: configCalls (47-51, 112-121, 152-170), commandStart (47-56); **RawCustom**: decodeConf (43-45), rawIsSet (223-236), rawStep (319-342), rawSteps (316-345), rawPlanCustomizations (42-45); **Session**: configFileUsed (174-187); **Settings**: expandTilde (68-77), configuredLibrary (181-184), packratPlatform (27-34), markedLine (133-141), renvLibrary (112-150), libraryPath (152-170), chooseLibrary (47-54), initActs (37-64); **Where**: libraryUsed (47-54), cacheUsed (61)
- `configlib/get_customization.go` — **Config**: customizationByName (6-15); **Session**: customizationOf (20-29)
- `configlib/structs.go` — **Config**: RepoCustom; **Logger**: LogConfig (23-28); **Options**: Options (40-63); **Plan**: PkgSetting (4-12), PlanCfg (31-63); **RawCustom**: PkgConf (4-9); **Rollback**: RunCfg
- `cran/download-package.go` — **Download**: resolveType (96-98), DlEnv.dest (94-121), DlEnv.url (173-189), DlEnv.downloadPackage (153-255), getRepos (62-68), DlEnv.mkRepoDirs (80-88), DlEnv.mkDirs (79-90), storeResult (124-139), DlEnv.init (74-90); **Fetching**: DlEnv.fetchAct (153-255), DlEnv.fineStep (74-145), DlEnv.fineInit (74-90), fetchStep (153-255); **Install**: sourceName (121); **LocalRepo**: Computer.file (202-233, 244); **RepoDb**: SourceType (53-60), RepoType (20-36), sourceTypeString (41-49); **Web**: Served (202), Party (197), Web (193), httpClient (193-199), isTLS (202), Client.meets (202), Got (202), Client.get (202), maxRequests (193-199), Web.file (202-221, 244)
- `cran/pkg_nexus.go` — **Nexus**: RepoResult (25-30), collectStep (45-59), collectRepos (44-61), setPackageRepo (66-76), parseType (89-98), setPackageType (79-87), isCorrectRepo (115-125), wantedType (129-133), typeInRepo (135-138), getPackageLoop (134-147), getPackage (128-148), getPackageFromRepo (151-162), getPackagesStep (168-177), getPackages (166-179), checkAllAvailable (184-190), getAllPkgsByName (193-208); **PkgDb**: RepoEnv.openAll (34-42), slotStep (46-59), RepoEnv.newPkgDb (17-62)
- `cran/r_version.go` — **RepoDb**: RVersion.toFullString (6-8), RVersion.toStr (11-13)
- `cran/repodb.go` — **DbShare**: dbAct (119-142, 161-271, 55-84); **Download**: packagesDirURL (102-112); **LocalRepo**: Computer.index (168-206); **Logger**: cacheRemark (312-315); **PkgDb**: RepoEnv.indexURL (102-112), Answer.body (166-206), RepoEnv.fetchType (166-248), RepoEnv.aborts (172), RepoEnv.fetchAndStore (161-271), RepoEnv.fetchPackages (119-272), RepoEnv.newRepoDb (28-52); **RepoDb**: RepoDb (40-49), RepoDb.setTable (263), initRepoDb (28-49), checkRVersionCompatibility (283-309), isRVersionCompatible (274-281), normalizeCRLF (208), splitBlank (209), loadStanzas (214-246), fetchOne (166-248), collectFetchStep (252-262), collectFetches (252-271), fetchResults (161-251), cacheIsFresh (124-134), CacheAction (119-272), cacheAction (123-142), stsum (92-95), hashInput (97), repoDbCacheFile (87-99, 312-319), decodeInto (55-64); **Web**: Served (169), Party (153), Web (150), Client (150-156), httpClient (150-156), isTLS (169), Client.meets (169), Got (169), Client.get (169), maxRequests (150-156), Web.index (169-193)
- `cran/structs.go` — **Install**: Download; **Linux**: OsRelease (92-105); **Nexus**: PkgConfig (42-45), Nexus (29-32, 48-52), PkgDl (67-70), AvailablePkgs (74-77); **Plan**: OutdatedPackage (86-90); **RepoDb**: RepoURL (13-17), RepoDb (20-26), RepoConfig (35-39), RVersion (80-84)
- `cran/sync.go` — **SyncMap**: MapOp.writes (19-39), MapOp.effect (21, 28, 36), MapOp.answer (36, 38), MapState (8-11), MapState.lock (20, 27, 35), MapState.unlock (22, 29, 37), MapState.step (19-39), MapState.start (14-16)
- `cran/utils.go` — **Download**: cranBinaryURL (142-157); **Install**: cranBinaryName (34-51), repoUrlHash (160-167); **Linux**: eqSplit (181-183), quoteLoop (181-183), quoteValues (181-183), tomlLine (187-190), readOsRelease (169-208), linuxSupportsBinary (89-103), linuxBinaryUri (111-140); **RepoDb**: Platform (89-103), defaultType (55-66), supportsBinary (70-85)
- `desc/dep.go` — **Dep**: Dep.toStr (8-10)
- `desc/desc.go` — **Control**: textLines (119), ParaState (119), contText (119), appendLine (119), readPara (119), decodeDesc (118-119), parseDesc (117-124); **Dep**: parseConstraint (25-43), parseDep (19-46), depMap (73-78), newDesc (49-99)
- `desc/structs.go` — **Control**: inCutset (115-121), trimCutset (115-121), decodeList (118-121), decodeText (101-125), decodeDesc (101-125); **Dep**: Constraint (4, 25-32), Constraint.toStr (6-21), Dep (51-55), Desc (58-79), RawDesc (101-125), combinedDeps (81-96); **Version**: Version (39-48)
- `desc/version.go` — **Version**: isVerSep (11), parseVersion (9-26), compareVersions (36-69), compareVersionStrings (29-31), isLowerVersion (74-88)
- `gpsr/dependencies.go` — **Plan**: Graph (13-37), nodeDependencies (55-67), readyNodes (76-81), removeReady (91-93), layerLoop (73-102), resolveLayers (53-105), pack (128-142), InstallPlan.allPackages (144-153), InstallPlan.numToInstall (155-177), invertStep (115-119), invertDependencies (111-126)
- `gpsr/helpers.go` — **Plan**: isExcluded (9-15), configOf (19-22), fieldReqs (24-33), reqsOf (23-53), visitStep (60-69), appendToGraph (17-82)
- `gpsr/install.go` — **Plan**: newDefaultInstallDeps (5-15)
- `gpsr/pkgs.go` — **Plan**: basePackages (5-18), recommendedPackages (19-33), defaultPackageType (4-34)
- `gpsr/solution.go` — **Plan**: addRequested (36-39), buildGraph (36-39), laterLayers (64-79), allDepsOf (63-79), defaultCfgs (24-29), withNoRecommended (30-33), depDbStep (51-80), resolveInstallationReqs (12-95)
- `gpsr/structs.go` — **Plan**: PkgDeps (28-34), InstallDeps (37-40), AdditionalPkg (20-24), InstallPlan (9-18)
- `internal/archive/extract.go` — **Archive**: writeNew (87-111), extractFile (74-115), extract (38-72)
- `internal/valtools/checkmat/main.go` — **Valtools**: MatEntry (54-60), entryFiles (75-86), invalidStep (92-97), checkValidFileNames (88-101), missingLoop (103-122), checkMissingFiles (103-122), docToEntrypoint (129-134), mismatchStep (139-148), checkEntrypointDocMismatch (136-151), twiceStep (157-165), checkDupEntrypoints (153-168), noEntryStep (189-194), checkMissingEntries (170-197), runChecks (225-231), checkMatrix (205-235), matStatus (255-264)
- `internal/valtools/filecov/main.go` — **Valtools**: tallyStep (51-56), tallyCovered (48-59), percent (71-77), Coverage (61-69), coverageStep (83-93), percentCovered (79-96), shortenFile (115-132), shortenFileNames (98-136), fileCov (138-153, 155-182)
- `internal/valtools/fmttests/main.go` — **Valtools**: TestEvent (40-47), TestSum (49-53), packageBaseName (55-63), TestSum.line (125-131), testStep (84-132), processEvents (79-139), testStatus (153-163)
- `logger/logger.go` — **Logger**: Level (54-62), setLogLevel (79-101), LogFmt (66-77), LogFmt (28, 42), fire (40-51), say (40-64), openLog (109-113), addLogFile (103-120)
- `os/env.go` — **Settings**: isShellSpecial, isAlphaNum, braceName, shellName, expandAux
- `pacman/utils.go` — **Control**: installedDesc (100-106); **Inspect**: InstalledFrom (136-140), installerStep (53-59), getInstallers (51-67), InstalledFrom.notFromPkgr (143-152); **Json**: installedFromOutput (70-85, 136-140); **LibScan**: scanInstalledPackage (87-109), readLibraryFrom (29-45), readLibrary (16-48), readLibrary (72); **Plan**: outdatedStep (115-131), getOutdatedPackages (112-133); **Rollback**: scanInstalled (29-45), getPriorInstalled (16-48)
- `rcmd/Rsettings.go` — **Env**: RSettings.R (28-48), RSettings.libPathsEnv (102-110), versionLine (69-97), parseVersionData (67-99); **RCalls**: getRVersion (55-65), newRSettings (16-25); **RProcs**: versionProc (57)
- `rcmd/RunR.go` — **Env**: convertToRscript (63-73); **RProcs**: versionProc (126-147); **Session**: startR (18-59)
- `rcmd/cache.go` — **Where**: cacheUsed (12-17)
- `rcmd/configure.go` — **Env**: censoredVars (107-122), globalStep (18-23), pkgStep (29-31), pathValue (57-63), sysAdd (64-75), sysStep (39-77), customList (15-36), addLibPaths (92-95), configureEnv (14-103); **RProcs**: Inherited (80-90); **TempDir**: tempDirAt (80-83), makeTempDir (85)
- `rcmd/helpers.go` — **Install**: binaryNameOs (12-24), binaryExtOs (30-43)
- `rcmd/install.go` — **Inspect**: defaultInstallArgs (28-36), InstallArgs.cliArgs (40-64), rArgs (124-130), passArgs (283-294); **Install**: Stamp (553-561), isPkgrLine (604-608), stampLine (600-616), stampLines (597-623), stampFile (553-578), RCall (122-151), RExit (152-184), exitOf (157-184), exitOf, install (68-222), InstallReq (29-36), InstallEnv.stamp (553-561), InstallEnv.cachedBinary (231-241), cleanTmp (348-358), InstallEnv.build (341-391), InstallEnv.installThroughBinary (266-392), InstallEnv.storeBinary (472-481); **Queue**: Pass (266-392), IPhase (266-392), QEnv.req (517-526), QEnv.src (313-315), QEnv.rcall (283-294, 312-347, 382-389, 122-151), Pass.checksDir (84-93), QEnv.stampOf (553-561), QEnv.callStep (77-120), QEnv.stampStep (562-578), QEnv.returnStep (293-295, 348-391), QEnv.findStep (359-381), QEnv.lookupStep (282, 226-257), QEnv.progStep (266-392), afterR (157-184), outcomeOf (427-432, 471), QEnv.storeDir (472-481), Fs.mkdir (476), QEnv.init (395-530); **RProcs**: rCmdInstall (120-151), Pass.argPass (283-295, 341-347, 382-389), passSettings (326), QEnv.rProc (266-392); **Sched**: Job (395-420), jobOf (395-420), Requester (500-528), Updater (427-498), RunResult (546-550), Job.init (406-530), depsInstalled (453-461), stepMainAdd (532-533), stepMainSend (534, 502), stepMainReturn (536-550), stepReqCheck (503-516), stepReqPush (517-526), stepUpdTake (427-449), stepUpdScan (450-462, 471), stepUpdSend (467, 502), stepUpdCopy (471-495), stepUpdDone (497); **TempDir**: tempDirAt (297-300), makeTempDir (300)
- `rcmd/nvp.go` — **Env**: NvpList.app (9-11), NvpList.appNvp (14-19), NvpList.get (22-29), NvpList.getNvp (32-39), NvpList.remove (42-53), NvpList.update (56-69), Nvp.render (72-74)
- `rcmd/rp/lines.go` — **Env**: dropLineNo (22-24), scanROutput (19-38)
- `rcmd/structs.go` — **Env**: Nvp, NvpList, RSettings (23-30); **Inspect**: InstallArgs (33-49), InstallArgs.cliArgs (34-48); **Install**: InstallReq; **RCalls**: RState (22-30)
- `rcmd/utils.go` — **TempDir**: randomString (15-23)
- `rcmd/worker.go` — **Queue**: outcomeOf (24-40); **Sched**: Outcome (24), QueueCaps (66-67), jobOf (61-77), Worker (11-49), stepReqPush (107-109), stepTake (17), stepFinish (24), stepPost (33-40), stepUpdTake (82)
- `rollback/operations.go` — **Rollback**: tagOld (139-158), tagAll (128-137), restoreOne (101-120), restoreAll (86-125), removeNew (30-39), rollbackEnvironment (11-59), deleteBackups (61-84)
- `rollback/structs.go` — **Rollback**: UpdateAttempt
- `rollback/types.go` — **Rollback**: RollbackPlan (12-20), discernNewPackages (86-97), createRollbackPlan (23-36), tagAll (58-68), RollbackPlan.toUpdate (43-49), RollbackPlan.toOverwrite (58-60), prepareForUpdate (39-54), prepareForOverwrite (56-70), RollbackPlan.deleteBackupFolders (72-83)

## 6. Disagreements between the code and what a user would expect

Each is proved as a `violated` theorem (or follows from the exact theorem named).

- **C03** versions with five or more components: only the first three numbers count (desc/version.go:9-26).
- **C06** `Depends: R` without a version filters the package out under every R.
- **C08** a repository that cannot be fetched is treated as empty when only sources are asked for.
- **C09** the cached database's file name does not depend on the source types or the suffix, and name and URL are concatenated without separator (cran/repodb.go:97).
- **C15** a repository pin switches off the repository's default type.
- **C20** base and recommended packages that are merely suggested are planned when suggested packages are wanted.
- **C28** a second customization entry of a package without `Suggests` switches off the first one's; with `Type` planning ends fatally.
- **C29** `Depends` of tarballs and DESCRIPTION files are not planned.
- **C30** an empty package list panics.
- **C32** outdated packages outside the plan are counted.
- **C38** after a failure the run may wait for ever: names dropped by the requester are never reported to the wait group; the same when copying a built binary fails.
- **C42** the documented cap of 8 workers is not applied to the default.
- **C44** package names containing `tar.gz`; downloaded linux binaries are searched under another name than they are stored.
- **C46** an interrupted download is used by the next run as the package.
- **C47** an HTTP error status is recorded as a download without a path, and R then installs the working directory; two repositories of one name share a directory; a missing local file is fatal.
- **C48** DESCRIPTION lines that mention the marker are deleted; original repository URLs are cut at a colon; OriginalRepository lines accumulate.
- **C49** a directory without DESCRIPTION is deleted by the rollback; a stale backup is restored instead of the installed version; a run that dies while downloading leaves packages set aside.
- **C51** when setting a package aside fails, the rollback deletes the only copy.
- **C52** backups are deleted even if restoring failed, or was not even tried because a new package could not be removed.
- **C53** a package both outdated and given as a tarball is lost by the rollback.
- **C54** exit status 0 after a failed installation.
- **C57** tarballs are reinstalled by every run.
- **C58** repeated arguments are added twice; CRLF files are rewritten; a line of 64 KiB or more truncates the file.
- **C59** quoted `Packages` key: a second section is appended.
- **C60** `remove` deletes entries that merely begin with the name, and misses quoted ones.
- **C61** a section created by `add` stays.
- **C62** an empty or flow-style `Packages` section makes `add` panic.
- **C63** an inherited R_LIBS reaches R; a library path with `=` drops R_LIBS_SITE.
- **C64** customized R_LIBS_USER is overridden; values are trimmed; inherited names with trailing blanks win.
- **C66** values are trimmed; names equal to a secret up to special case folding are hidden.
- **C68** `=` and `:` in library paths.
- **C71** a partial extraction is reused by the next run.
- **C72** no cache directory: panic; unpacked tarballs are removed whatever was selected.
- **C74** without a configured cache the tarball cleanup looks in the working directory.
- **C75** a package listed twice is counted twice.
- **C77** threads 0: `load` hangs; negative: panic.
- **C79** `./R` becomes `R`.
- **C80** the last "R version" line wins; development versions give 0.0.0; a bare `Platform:` panics.
- **C81** a missing package file is reported as an installation.
- **C82** binary packages of a repository with suffix are fetched from another directory than the index.
- **C83** settings of a repository customized twice come from different entries.
- **C84** the PATH check compares text, not directories.
- **C85** several repositories in one list item are searched in random order.
- **C87** an interrupted write of the database cache makes every run fail until the file expires.
- **C88** two entries of one package in Customizations are rejected although both are valid; a repository with an empty name cannot be set.
- **C89** binary packages of a repository with a suffix are fetched from another directory than their index outside Linux.
- **C91, C92** missing package files count as installed; a package whose download is missing from the table makes R CMD INSTALL run on the working directory (rcmd/install.go:511).
- **C93** an interrupted copy leaves a truncated binary in the cache.
- **C94** a partial package directory counts as installed.
- **C96** `inspect --reverse --tree` shows forward dependencies.
- **C97** `load --all` loads nothing when a configured package is missing.
- **C100** an unclosed `${` swallows lines.
- **C103** renv and R are asked in the caller's directory.
- **C104** os-release values with `=`, empty or single-quoted; a remark ending in `=` makes the file unreadable.
- **C105** two-digit CentOS/RHEL versions; unknown distributions.
- **C107** tarballs that need each other are installed in random order.
- **C108** a repository called "tarballs".
- **C109** the list of packages to install omits updates.
- **C112** with NoRollback a failed update loses the old version.
- **C113** short library paths printed on one row are merged.
- **C114** `load --config sub/pkgr.yml` runs in `sub/sub`.
- **C115** `run` ignores how R ends; two customizations; R_LIBS.
- **C116** `add`/`remove --config sub/pkgr.yml` edit `sub/sub/pkgr.yml`.
- **C117** the configuration file is truncated in place.
- **C119** with pkgr started in the directory of an R package, a package that could not be downloaded counts as installed and the run never ends.
- **C120** `plan`, `load`, `run`, `clean cache` and `clean pkgdbs` write no log file; `add --install` opens it twice, so that records come twice and with `overwrite` the first ones are lost; records before the configuration is read are in no file.
- **C122** with `--loglevel=panic` pkgr ends without a word.
- **C123** remarks printed with `fmt.Println` (no user cache directory) and trace records get into the JSON output.
- **C124** customizations with keys in another case (`suggests: true`) are decoded and then ignored; an entry without settings (`- pkg:`) crashes planning.
- **C126** `clean pkgdbs` opens and plans first: a damaged young database, an unreachable repository or a configuration without packages ends it before anything is removed.
- **C127** `clean --all` plans after having removed the unpacked tarballs, which unpacks them again.
- **C131** fmttests passes over the failure of a whole package (compile error, TestMain, panic outside a test): exit status 0, although any "fail" record should give 1. (Also: checkmat's `skip` applies to check [03], not to [05] as its usage message says, and `.` counts as a proper file name; C129 states what it does.)
- **C132** `GetPackageFromRepo` finds nothing for a package without a type setting (the default type is not put in). (Not used by any command.)
- **C133** `RPath: ~/R` with an renv or packrat lockfile ends every command: R is run before the tilde is expanded.
- **C134** after a kill during the deletion of backups, the next run may take the half-deleted backup for the installed version; if it fails, the rollback deletes the complete new version and puts the half-deleted one in its place. A backup left by a kill stays for ever when the listing of the library happens to have the new version after it.
- **C135** a top-level key `json`, `all` or `show-deps` of the configuration file switches on the command's option of that name; `LogLevel` in the file has no effect, except after `add --install` has read the configuration a second time.
- C139: on platforms without binaries a repository whose only index is refused (e.g. HTTP 404) opens as an empty one, and the empty database is cached for an hour (C139_violated_empty).
- **C140** every package that is built leaves a directory with its binary in the system's temporary directory for ever (rcmd/install.go:296-392 never removes `tmpdir`; rcmd/configure.go:80-84 makes another one for R_LIBS_USER for every call of R).
- **C141** two runs that need the same package file: the second finds the half-written file of the first and hands it to R; or it truncates the complete file of the first, which returns with it.
- **C142** two runs in one library: a run that fails deletes every package of its plan that was new to it, whoever installed it; if both found the library missing, the whole library. Both use the same backup names: if one succeeds (deleting the backups) and the other then fails, packages that both update are lost in both versions.
- **C143** every outdated package of the library is announced as `package will be updated` and counted in `to_update`, but only those that are part of the plan are updated.
- **C146** the database cache file is created and written in place: a run that opens it meanwhile, or within the hour after a run was killed while writing, ends with an error; two runs that write it at the same time can leave a file with packages missing (gob writes maps in random order, each run writes at its own offsets into the same file).
- **C148** an installed package with a version without separator (`2`), which a repository also offers, makes every plan crash (index out of range in `ParseVersion`).
- **C149** two projects that name a repository by the same relative path (`repo`) share its cached database for an hour and its cached packages for ever, although these are different directories; a local index that is there and cannot be read counts as an empty repository, without an error; a directory whose name begins with `http` is taken for a server.
- **C150** the name of a temporary directory is drawn by a generator that is seeded anew from the clock each time and the directory may exist already: two workers that read the same time build in one directory, and the "empty" user library given to R may have packages in it; these directories are never removed (C140).
- **C135** a key `config` in pkgr.yml makes `add --install` install what another file says.
- **C152** a line of a DESCRIPTION that merely mentions one of pkgr's fields is deleted by the stamp and its continuation lines become part of the field before it: the installed package may then make every later command panic; a DESCRIPTION that ends with a blank line hides the stamp.
- **C153** an index that ends with two blank lines (any even number) is unusable: the left-over newline is taken for a record that does not parse.
- **C156** the name of a downloaded Linux binary carries a fixed platform (`x86_64-pc-linux-gnu`, on RHEL `x86_64-redhat-linux-gnu`) while the cache is searched under R's own platform string; where they differ (CentOS or Fedora with the distribution's R, any ARM machine) the downloaded binary is rebuilt, the result is looked for under a wrong name, and the package can never be installed.
- **C157** the R that builds a tarball, and the one that installs a cached binary, get no R_LIBS_SITE: R's default site libraries are searched.
- **C158** an `Rpath` given as a relative path (`tools/R`) works for the version question but packages are built in the temporary directory, from which the path leads nowhere.
- **C159** a relative `--library` or `PKGR_LIBRARY` is taken from the directory of the configuration file, not from where pkgr was started.
- **C160** `pkgr load` ends with status 0 whatever packages cannot be loaded.
- **C161** A package in the library with a dependency such as `R (>= 3)` (a version of one part), or with a malformed one, makes every command that looks at the library panic (desc/version.go:13, desc/desc.go:42), also when the package has nothing to do with what is to be installed.
- **C162** The same dependency text (`R (>= 3)`) in the DESCRIPTION of a configured tarball, or in a configured DESCRIPTION file, makes planning panic instead of reporting it.
- **C163** a trusted https server may redirect to a plain http URL: whatever is answered there is used (net/http follows such redirects; pkgr sets no `CheckRedirect`).
- **C164** with `NoSecure` the client has an `http.Transport` of its own without `Proxy` (cran/repodb.go:152-155, cran/download-package.go:196-199): the proxy of the environment is no longer used.
- **C165** package files and indices fetched with `--no-secure` stay in the caches and are used by later runs that do verify certificates.
- **C166** R works in the unpacked tarball in the cache (`cmd/install.go:190-233`), and a directory that is there is taken for the tarball in the next run (`cmd/tarballOps.go:75-113`): what R left there, such as object files, becomes part of what is installed later.
- **C167** `pkgr remove p` also removes every listed package whose name begins with `p` (`configlib/config.go:remove`); `pkgr add` in a file whose list of packages is in brackets puts an entry below the line, and the file can no longer be read (`configlib/add_package.go:insertPackages`).
- **C170** The order of customizations matters when one package has two of them: what the last one says (or does not say) about suggested packages decides.
- **C171** The place of a binary in the package cache does not depend on the repository's suffix (`RepoSuffix`) or on the Linux distribution, but its URL does: after a change of either, the binaries of the old one are installed.

## 7. Testing the theorems against wrong programs

`seeded/LOG.jsonl` has one line per seeded bug: the definition edited, the edit, the claim it breaks, the theorems that
failed and those that were tightened because they had survived.
