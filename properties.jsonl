{"id": "C01", "title": "Version comparison is a total preorder", "statement": "Comparing two package versions returns only -1, 0 or 1, is reflexive (0 on equal versions), antisymmetric in sign, and transitive, so 'newer than' never cycles and is consistent whichever argument comes first.", "quantifier": "all pairs and triples of versions", "why_tests_cant": "The input domain is infinite; tests sample a few literals.", "anchors": ["desc/version.go:CompareVersions"]}
{"id": "C02", "title": "Versions of two to four numeric components compare numerically, component by component", "statement": "For version strings made of two to four decimal numbers separated by '.' or '-', comparing the texts gives the lexicographic order of the number sequences padded with zeros; the separator does not matter (1.10 > 1.9, 1.2-3 = 1.2.3).", "quantifier": "all number sequences of length 2..4 and all separator choices", "why_tests_cant": "The input domain is infinite; tests sample a few literals.", "anchors": ["desc/version.go:ParseVersion", "desc/version.go:CompareVersionStrings"]}
{"id": "C03", "title": "Versions with more components compare numerically too", "statement": "For version strings of five or more numeric components, comparing the texts gives the lexicographic order of the number sequences.", "quantifier": "all number sequences of length at least 5", "why_tests_cant": "The input domain is infinite; tests sample a few literals.", "anchors": ["desc/version.go:ParseVersion"]}
{"id": "C04", "title": "Dependency text round trip", "statement": "Rendering a dependency (name, constraint, version) as text and parsing it back gives the same dependency.", "quantifier": "all names without parentheses/surrounding space, all constraints, all 2..4 component versions", "why_tests_cant": "The input domain is infinite; tests sample a few literals.", "anchors": ["desc/desc.go:ParseDep", "desc/dep.go:ToString"]}
{"id": "C05", "title": "A malformed dependency never silently becomes a different constraint", "statement": "Parsing a dependency either yields the constraint operator that is written, or yields 'no constraint' exactly when there is no parenthesis, or aborts; and it aborts exactly when the parenthesised text has no comparison operator or its version has fewer than two components.", "quantifier": "all dependency strings", "why_tests_cant": "The input domain is infinite; tests sample a few literals.", "anchors": ["desc/desc.go:ParseDep"]}
{"id": "C06", "title": "Packages incompatible with the running R are never offered", "statement": "A stanza of a repository index is offered iff its R requirement (Depends: R (op v)) is satisfied by the running R version; a package that states no version for R is offered.", "quantifier": "all index stanzas, all R versions", "why_tests_cant": "The input domain is infinite; tests sample a few literals.", "anchors": ["cran/repodb.go:isRVersionCompatible"]}
{"id": "C07", "title": "An index is loaded as: last acceptable stanza per package wins", "statement": "After loading an index, looking a package up gives exactly the last stanza of that name that is in the main directory (no Path) and is R-compatible; every entry is filed under its own package name.", "quantifier": "all index texts and all package names", "why_tests_cant": "The input domain is infinite; tests sample a few literals.", "anchors": ["cran/repodb.go:FetchPackages"]}
{"id": "C08", "title": "A repository that cannot be fetched is reported", "statement": "If no package index of a repository can be downloaded, building the package database reports an error rather than treating the repository as empty.", "quantifier": "all repositories, source-type sets and fetch outcomes", "why_tests_cant": "The input domain is infinite; tests sample a few literals.", "anchors": ["cran/repodb.go:FetchPackages"]}
{"id": "C09", "title": "Cached repository databases are not mixed up", "statement": "Two repository configurations that differ in name, URL, source types or R version use different cache files.", "quantifier": "all pairs of repository configurations", "why_tests_cant": "The input domain is infinite; tests sample a few literals.", "anchors": ["cran/repodb.go:Hash"]}
{"id": "C10", "title": "Cache freshness", "statement": "A cached repository database is used iff it exists and is younger than the configured maximum age (3600 s unless the environment variable holds a number); otherwise the index is fetched.", "quantifier": "all clocks, modification times, settings", "why_tests_cant": "The input domain is infinite; tests sample a few literals.", "anchors": ["cran/repodb.go:GetPackages"]}
{"id": "C11", "title": "Repository priority does not depend on fetch timing", "statement": "The list of loaded repositories is in configuration order whatever order the concurrent fetches finish in; an error is reported iff some fetch failed.", "quantifier": "all completion orders of the fetches", "why_tests_cant": "The Go runtime picks among unboundedly many interleavings; a test run exercises one.", "anchors": ["cran/pkg_nexus.go:NewPkgDb"]}
{"id": "C12", "title": "First configured repository wins", "statement": "Without a pin, a package resolves to the first configured repository that offers it in the source type in force, and fails to resolve iff none does.", "quantifier": "all databases, packages and settings", "why_tests_cant": "The input domain is infinite; tests sample a few literals.", "anchors": ["cran/pkg_nexus.go:GetPackage"]}
{"id": "C13", "title": "Repository pins are honoured", "statement": "A package pinned to a repository resolves only to a repository of that name, or not at all; pinning to an unknown repository is an error.", "quantifier": "all databases, packages and pins", "why_tests_cant": "The input domain is infinite; tests sample a few literals.", "anchors": ["cran/pkg_nexus.go:SetPackageRepo", "cran/pkg_nexus.go:GetPackage"]}
{"id": "C14", "title": "Type pins are honoured", "statement": "A package pinned to source or binary resolves only to that type; pinning to any other word is an error.", "quantifier": "all databases, packages and pins", "why_tests_cant": "The input domain is infinite; tests sample a few literals.", "anchors": ["cran/pkg_nexus.go:SetPackageType"]}
{"id": "C15", "title": "A repository's default type is honoured", "statement": "A package found in a repository that has a default source type is taken in that type unless the package has its own type setting.", "quantifier": "all databases and packages", "why_tests_cant": "The input domain is infinite; tests sample a few literals.", "anchors": ["cran/pkg_nexus.go:GetPackage"]}
{"id": "C16", "title": "Ignored packages are never planned or installed", "statement": "A package listed in IgnorePackages is not resolvable from any repository and never appears in an install plan as a downloadable package.", "quantifier": "all ignore lists, databases and plans", "why_tests_cant": "The input domain is infinite; tests sample a few literals.", "anchors": ["cmd/plan.go:planInstall"]}
{"id": "C17", "title": "Missing packages are reported exactly", "statement": "Checking availability reports exactly the requested packages that no repository resolves, and pairs every requested package with its lookup result.", "quantifier": "all request lists", "why_tests_cant": "The input domain is infinite; tests sample a few literals.", "anchors": ["cran/pkg_nexus.go:GetPackages"]}
{"id": "C18", "title": "Planning terminates on every repository, including cyclic ones", "statement": "Dependency collection finishes for every database, including databases with circular dependencies or circular Suggests, within a number of steps bounded by the number of offered packages.", "quantifier": "all databases, all settings, all map iteration orders", "why_tests_cant": "Go map iteration order is random and plan inputs are unbounded; a test run sees one order of one input.", "anchors": ["gpsr/helpers.go:appendToGraph"]}
{"id": "C19", "title": "The plan is the least closed set", "statement": "The set of packages in the plan is exactly the least set containing the requested packages and closed under the dependency fields selected for each package (minus base/recommended exclusions); each package's recorded requirements are exactly those dependencies.", "quantifier": "all databases, settings, requests, map orders", "why_tests_cant": "Go map iteration order is random and plan inputs are unbounded; a test run sees one order of one input.", "anchors": ["gpsr/helpers.go:appendToGraph"]}
{"id": "C20", "title": "Base and excluded recommended packages are never planned", "statement": "A base R package never enters the plan, and with NoRecommended no recommended package does, unless the user requested it.", "quantifier": "all databases, settings, requests", "why_tests_cant": "Go map iteration order is random and plan inputs are unbounded; a test run sees one order of one input.", "anchors": ["gpsr/helpers.go:isExcludedPackage", "gpsr/helpers.go:appendToGraph"]}
{"id": "C21", "title": "Layering is sound", "statement": "Every package is in exactly one layer, and every dependency of a package is in a strictly earlier layer.", "quantifier": "all graphs and map orders", "why_tests_cant": "Go map iteration order is random and plan inputs are unbounded; a test run sees one order of one input.", "anchors": ["gpsr/dependencies.go:ResolveLayers"]}
{"id": "C22", "title": "Circular dependencies are reported iff present", "statement": "Layering fails iff the requirements contain a cycle (or an unplanned requirement).", "quantifier": "all graphs", "why_tests_cant": "Go map iteration order is random and plan inputs are unbounded; a test run sees one order of one input.", "anchors": ["gpsr/dependencies.go:ResolveLayers"]}
{"id": "C23", "title": "Planning is deterministic up to order", "statement": "Two runs of planning on the same inputs, whatever the map iteration orders, plan the same packages, the same downloads, the same per-package dependency sets and the same layers as sets.", "quantifier": "all pairs of map iteration orders", "why_tests_cant": "Go map iteration order is random and plan inputs are unbounded; a test run sees one order of one input.", "anchors": ["gpsr/solution.go:ResolveInstallationReqs"]}
{"id": "C24", "title": "Per-package dependency lists are exactly the transitive dependencies", "statement": "For every planned package outside the first layer, the recorded dependency list is exactly the set of packages reachable from it by dependency fields.", "quantifier": "all databases and plans", "why_tests_cant": "Go map iteration order is random and plan inputs are unbounded; a test run sees one order of one input.", "anchors": ["gpsr/solution.go:ResolveInstallationReqs"]}
{"id": "C25", "title": "Starting packages need nothing", "statement": "The packages started first are exactly the planned packages with no planned dependency; they and the packages with dependency lists partition the plan.", "quantifier": "all plans", "why_tests_cant": "Go map iteration order is random and plan inputs are unbounded; a test run sees one order of one input.", "anchors": ["gpsr/solution.go:ResolveInstallationReqs"]}
{"id": "C26", "title": "Every planned package is downloaded exactly once", "statement": "The download list has exactly one entry for every planned package, resolved as configured.", "quantifier": "all plans", "why_tests_cant": "Go map iteration order is random and plan inputs are unbounded; a test run sees one order of one input.", "anchors": ["gpsr/solution.go:ResolveInstallationReqs"]}
{"id": "C27", "title": "Reverse dependencies are the exact converse", "statement": "The inverted dependency table lists b under a iff a is listed under b, sorted and once.", "quantifier": "all dependency tables, map orders", "why_tests_cant": "Go map iteration order is random and plan inputs are unbounded; a test run sees one order of one input.", "anchors": ["gpsr/dependencies.go:InvertDependencies"]}
{"id": "C28", "title": "Suggests settings mean what they say", "statement": "With global Suggests, suggested packages of the requested packages are planned and suggested packages of mere dependencies are not; a per-package Suggests setting overrides the global one for that package only.", "quantifier": "all settings, databases and requests", "why_tests_cant": "Go map iteration order is random and plan inputs are unbounded; a test run sees one order of one input.", "anchors": ["gpsr/helpers.go:appendToGraph", "configlib/config.go:setViperCustomizations"]}
{"id": "C29", "title": "Tarball and DESCRIPTION requirements are planned", "statement": "Every package that a listed tarball or DESCRIPTION file needs to install (Depends, Imports, LinkingTo) is requested.", "quantifier": "all DESCRIPTION contents", "why_tests_cant": "The input domain is infinite; tests sample a few literals.", "anchors": ["desc/structs.go:GetCombinedDependencies", "cmd/plan.go:planInstall"]}
{"id": "C30", "title": "An empty package list is not a crash", "statement": "Planning with no packages gives an empty plan.", "quantifier": "all databases", "why_tests_cant": "The input domain is infinite; tests sample a few literals.", "anchors": ["gpsr/solution.go:ResolveInstallationReqs"]}
{"id": "C31", "title": "Outdated means strictly older", "statement": "The outdated list has exactly one entry per installed package whose installed version is strictly older than the version on offer, and never proposes a downgrade.", "quantifier": "all installed sets and offers", "why_tests_cant": "The input domain is infinite; tests sample a few literals.", "anchors": ["pacman/utils.go:GetOutdatedPackages"]}
{"id": "C32", "title": "The reported number of packages to install is exact", "statement": "The number reported as to install equals the number of planned packages that are not installed or are to be updated.", "quantifier": "all plans and installed sets", "why_tests_cant": "The input domain is infinite; tests sample a few literals.", "anchors": ["gpsr/dependencies.go:GetNumPackagesToInstall"]}
{"id": "C33", "title": "A package is never built before all its dependencies are installed", "statement": "In every execution of an install plan, whenever a package's installation starts, every package in its dependency list has already been installed successfully.", "quantifier": "all plans, all interleavings, all outcome patterns, any worker count", "why_tests_cant": "The Go runtime picks among unboundedly many interleavings; a test run exercises one.", "anchors": ["rcmd/install.go:InstallPackagePlan", "rcmd/worker.go"]}
{"id": "C34", "title": "No package is installed twice", "statement": "In every execution, each planned package's installation starts at most once.", "quantifier": "all plans, interleavings, outcomes, worker counts", "why_tests_cant": "The Go runtime picks among unboundedly many interleavings; a test run exercises one.", "anchors": ["rcmd/install.go:InstallPackagePlan"]}
{"id": "C35", "title": "A successful run installs the whole plan", "statement": "If the run returns and no package failed, every planned package was installed.", "quantifier": "all plans, interleavings, worker counts", "why_tests_cant": "The Go runtime picks among unboundedly many interleavings; a test run exercises one.", "anchors": ["rcmd/install.go:InstallPackagePlan"]}
{"id": "C36", "title": "No deadlock without failures", "statement": "When no package fails and the plan has at most 2000 packages, some goroutine can always make progress until the run returns, and every execution finishes within a bounded number of steps.", "quantifier": "all plans of at most 2000 packages, all interleavings", "why_tests_cant": "The Go runtime picks among unboundedly many interleavings; a test run exercises one.", "anchors": ["rcmd/install.go:InstallPackagePlan", "rcmd/worker.go:NewInstallQueue"]}
{"id": "C37", "title": "Dependents of a failed package are not installed, and the failure is reported", "statement": "If a package fails no package depending on it (directly or not) is started, and the run, if it returns, returns an error iff some installation failed.", "quantifier": "all plans, interleavings, outcomes", "why_tests_cant": "The Go runtime picks among unboundedly many interleavings; a test run exercises one.", "anchors": ["rcmd/install.go:InstallPackagePlan"]}
{"id": "C38", "title": "The run ends after a failure", "statement": "When a package fails, the run still returns (so that rollback can happen).", "quantifier": "all plans, interleavings, outcomes", "why_tests_cant": "The Go runtime picks among unboundedly many interleavings; a test run exercises one.", "anchors": ["rcmd/install.go:InstallPackagePlan"]}
{"id": "C39", "title": "The run does not return while an installation is in progress", "statement": "When the install call returns, no worker is still installing a package; the outstanding-work counter never goes negative.", "quantifier": "all plans, interleavings, outcomes", "why_tests_cant": "The Go runtime picks among unboundedly many interleavings; a test run exercises one.", "anchors": ["rcmd/install.go:InstallPackagePlan"]}
{"id": "C40", "title": "At most the configured number of concurrent installations", "statement": "At any moment at most n packages are being installed, n the worker count.", "quantifier": "all interleavings, all n", "why_tests_cant": "The Go runtime picks among unboundedly many interleavings; a test run exercises one.", "anchors": ["rcmd/worker.go:NewInstallQueue"]}
{"id": "C41", "title": "Worker count choice", "statement": "The worker count is the configured thread count, else min(8, max(CPUs,1)).", "quantifier": "all settings", "why_tests_cant": "The input domain is infinite; tests sample a few literals.", "anchors": ["cmd/utils.go:getWorkerCount"]}
{"id": "C42", "title": "Documented default cap of 8 workers", "statement": "If Threads is not configured at most 8 packages are installed at once.", "quantifier": "all machines", "why_tests_cant": "The input domain is infinite; tests sample a few literals.", "anchors": ["configlib/config.go:loadDefaultSettings", "cmd/utils.go:getWorkerCount"]}
{"id": "C43", "title": "A failed build never touches an installed package", "statement": "When a package built in two passes (build in a temporary library, then install the binary) fails in the build pass, the target library is unchanged; a package directory already present is left as is.", "quantifier": "all libraries, packages and outcomes", "why_tests_cant": "Every failing file operation and every crash point of every plan would have to be enumerated.", "anchors": ["rcmd/install.go:InstallThroughBinary"]}
{"id": "C44", "title": "The cached binary is found again", "statement": "The file name under which a built binary is stored is the name under which it is looked up, on every platform.", "quantifier": "all package names and versions", "why_tests_cant": "The input domain is infinite; tests sample a few literals.", "anchors": ["rcmd/helpers.go:binaryNameOs", "rcmd/helpers.go:binaryExtOs"]}
{"id": "C45", "title": "Cache paths identify the package", "statement": "Two different (repository, package, version, type, R series) downloads never share a cache path.", "quantifier": "all pairs of downloads", "why_tests_cant": "The input domain is infinite; tests sample a few literals.", "anchors": ["cran/download-package.go:DownloadPackages", "cran/utils.go:RepoURLHash"]}
{"id": "C46", "title": "An interrupted download is never used", "statement": "After a crash or error during a download, a later run does not use the truncated file as the package.", "quantifier": "all crash points and write failures", "why_tests_cant": "Every failing file operation and every crash point of every plan would have to be enumerated.", "anchors": ["cran/download-package.go:DownloadPackage"]}
{"id": "C47", "title": "Downloads: all attempted, at most ten at a time, failures visible", "statement": "All downloads are attempted, at most ten concurrently, the resulting table is the same in every schedule, and a package whose download failed does not get a usable path silently.", "quantifier": "all schedules and outcomes", "why_tests_cant": "The Go runtime picks among unboundedly many interleavings; a test run exercises one.", "anchors": ["cran/download-package.go:DownloadPackages", "cran/sync.go:Put"]}
{"id": "C48", "title": "DESCRIPTION stamping preserves the file", "statement": "Stamping a DESCRIPTION replaces or appends only the pkgr lines, keeps all other lines in order, and is idempotent.", "quantifier": "all DESCRIPTION texts", "why_tests_cant": "The input domain is infinite; tests sample a few literals.", "anchors": ["rcmd/install.go:updateDescriptionInfoByLines"]}
{"id": "C49", "title": "Rollback restores the library", "statement": "If an installation fails with rollback enabled, then after rollback the library holds exactly what it held before the run.", "quantifier": "all libraries, plans, subsets of packages installed before the failure", "why_tests_cant": "Every failing file operation and every crash point of every plan would have to be enumerated.", "anchors": ["rollback/operations.go:RollbackPackageEnvironment", "rollback/types.go:CreateRollbackPlan"]}
{"id": "C50", "title": "Packages outside the plan are never touched", "statement": "At every moment of a run with rollback and backup deletion, every directory of the library that is neither planned, a tarball, nor a backup of one is unchanged.", "quantifier": "all libraries, plans, outcomes, crash points", "why_tests_cant": "Every failing file operation and every crash point of every plan would have to be enumerated.", "anchors": ["rollback/operations.go", "rollback/types.go"]}
{"id": "C51", "title": "No crash loses an old version", "statement": "At every crash point of a run before backups are deleted, for every package that was being updated, either the old directory or its backup is intact.", "quantifier": "all libraries, plans, crash points", "why_tests_cant": "Every failing file operation and every crash point of every plan would have to be enumerated.", "anchors": ["rollback/operations.go:tagOldInstallation"]}
{"id": "C52", "title": "A failed rollback keeps the backups", "statement": "If restoring a package fails, its backup survives the run.", "quantifier": "all fault patterns", "why_tests_cant": "Every failing file operation and every crash point of every plan would have to be enumerated.", "anchors": ["cmd/install.go:rInstall", "rollback/types.go:DeleteBackupPackageFolders"]}
{"id": "C53", "title": "A package that is both outdated and given as a tarball is restored", "statement": "Rollback restores a package that is both outdated and overwritten by a tarball.", "quantifier": "all libraries", "why_tests_cant": "Every failing file operation and every crash point of every plan would have to be enumerated.", "anchors": ["rollback/types.go:PrepareAdditionalPackagesForOverwrite"]}
{"id": "C54", "title": "Failure is visible in the exit status", "statement": "If any installation fails the command's exit status is non-zero.", "quantifier": "all outcomes", "why_tests_cant": "Every failing file operation and every crash point of every plan would have to be enumerated.", "anchors": ["cmd/install.go:rInstall"]}
{"id": "C55", "title": "Strict mode never creates a library", "statement": "With Strict, a missing library aborts before any change; without it the library is created.", "quantifier": "all file systems", "why_tests_cant": "Every failing file operation and every crash point of every plan would have to be enumerated.", "anchors": ["cmd/install.go:rInstall"]}
{"id": "C56", "title": "NoUpdate keeps installed versions", "statement": "With NoUpdate no installed package is replaced by a planned one.", "quantifier": "all libraries and plans", "why_tests_cant": "Every failing file operation and every crash point of every plan would have to be enumerated.", "anchors": ["cmd/install.go:rInstall", "rcmd/install.go:InstallThroughBinary"]}
{"id": "C57", "title": "A second run after success changes nothing", "statement": "After a successful run with current versions, planning again finds nothing outdated and installing again leaves the library unchanged.", "quantifier": "all libraries and plans", "why_tests_cant": "Every failing file operation and every crash point of every plan would have to be enumerated.", "anchors": ["cmd/install.go:rInstall"]}
{"id": "C58", "title": "Adding packages only inserts lines", "statement": "Adding packages to the configuration inserts exactly the new entries directly under the Packages key with the indentation of the existing entries, and leaves all other lines unchanged and in order.", "quantifier": "all configuration files", "why_tests_cant": "The input domain is infinite; tests sample a few literals.", "anchors": ["configlib/add_package.go:insertPackages"]}
{"id": "C59", "title": "Adding a listed package changes nothing", "statement": "Adding packages that are all already listed leaves the file unchanged.", "quantifier": "all configuration files", "why_tests_cant": "The input domain is infinite; tests sample a few literals.", "anchors": ["configlib/add_package.go:AddPackages"]}
{"id": "C60", "title": "Removing a package removes only that package", "statement": "Removing a package deletes exactly the list entries naming that package and leaves all other lines unchanged.", "quantifier": "all configuration files and names", "why_tests_cant": "The input domain is infinite; tests sample a few literals.", "anchors": ["configlib/config.go:remove"]}
{"id": "C61", "title": "Remove undoes add", "statement": "Removing a package that was just added to a file without matching entries restores the file; removing twice is the same as once.", "quantifier": "all configuration files and names", "why_tests_cant": "The input domain is infinite; tests sample a few literals.", "anchors": ["configlib/config.go:remove", "configlib/add_package.go:insertPackages"]}
{"id": "C62", "title": "Adding to an empty Packages section is not a crash", "statement": "Adding packages to a configuration whose Packages list is empty works.", "quantifier": "all configuration files", "why_tests_cant": "The input domain is infinite; tests sample a few literals.", "anchors": ["configlib/add_package.go:insertPackages"]}
{"id": "C63", "title": "The build environment is isolated from user libraries", "statement": "The environment of R processes contains no inherited R_LIBS_USER / R_LIBS_SITE, and the library path is exactly the configured one.", "quantifier": "all system environments and settings", "why_tests_cant": "The input domain is infinite; tests sample a few literals.", "anchors": ["rcmd/configure.go:configureEnv"]}
{"id": "C64", "title": "Package environment settings win", "statement": "For every variable set in a package's Env customization, the R process sees that value, whatever the system environment.", "quantifier": "all environments", "why_tests_cant": "The input domain is infinite; tests sample a few literals.", "anchors": ["rcmd/configure.go:configureEnv"]}
{"id": "C65", "title": "Secrets never reach the logs or the build", "statement": "The value of a censored variable inherited from the system never appears in the computed environment.", "quantifier": "all environments", "why_tests_cant": "The input domain is infinite; tests sample a few literals.", "anchors": ["rcmd/configure.go:configureEnv", "rcmd/configure.go:censoredEnvVars"]}
{"id": "C66", "title": "Other system variables pass through unchanged", "statement": "Every other non-empty inherited variable is passed to the R process unchanged.", "quantifier": "all environments", "why_tests_cant": "The input domain is infinite; tests sample a few literals.", "anchors": ["rcmd/configure.go:configureEnv"]}
{"id": "C67", "title": "Name/value list laws", "statement": "Setting then getting a variable returns the set value; removing then getting finds nothing when names are unique; other names are unaffected.", "quantifier": "all lists and names", "why_tests_cant": "The input domain is infinite; tests sample a few literals.", "anchors": ["rcmd/nvp.go"]}
{"id": "C68", "title": "All configured library paths reach R", "statement": "The R library path variable passed to R lists exactly the configured library paths in order, for every path.", "quantifier": "all path lists", "why_tests_cant": "The input domain is infinite; tests sample a few literals.", "anchors": ["rcmd/Rsettings.go:LibPathsEnv"]}
{"id": "C69", "title": "Extraction is confined", "statement": "Extracting an archive only creates files and directories inside the destination, never overwrites an existing file, and creates no links, whatever the archive contains.", "quantifier": "all archives and file systems", "why_tests_cant": "The input domain is infinite; tests sample a few literals.", "anchors": ["internal/archive/extract.go"]}
{"id": "C70", "title": "Extraction is exact", "statement": "If extraction succeeds, every regular-file entry's content is at its path.", "quantifier": "all archives", "why_tests_cant": "The input domain is infinite; tests sample a few literals.", "anchors": ["internal/archive/extract.go:Extract"]}
{"id": "C71", "title": "A partially extracted tarball is not reused", "statement": "After a failed or interrupted extraction a later run does not use the partial directory.", "quantifier": "all crash points", "why_tests_cant": "Every failing file operation and every crash point of every plan would have to be enumerated.", "anchors": ["cmd/tarballOps.go:untar"]}
{"id": "C72", "title": "Cleaning the cache removes only what was asked", "statement": "Cleaning the package cache removes exactly the selected kinds under exactly the selected repositories.", "quantifier": "all cache contents and options", "why_tests_cant": "The input domain is infinite; tests sample a few literals.", "anchors": ["cmd/cleanCache.go"]}
{"id": "C73", "title": "Cleaning package databases is selective", "statement": "Cleaning package databases removes exactly the database files of the selected repositories.", "quantifier": "all options", "why_tests_cant": "The input domain is infinite; tests sample a few literals.", "anchors": ["cmd/cleanPkgdb.go:removePackageDatabases"]}
{"id": "C74", "title": "Tarball cleanup acts on the cache in use", "statement": "Cleaning tarballs acts on the same cache directory the installer uses, including the default one.", "quantifier": "all configurations", "why_tests_cant": "The input domain is infinite; tests sample a few literals.", "anchors": ["cmd/cleanCache.go:cleanCacheFolders", "cmd/utils.go:userCache"]}
{"id": "C75", "title": "Load report is exact and order independent", "statement": "The load report counts exactly the failing packages whatever order the sessions finish in.", "quantifier": "all completion orders", "why_tests_cant": "The Go runtime picks among unboundedly many interleavings; a test run exercises one.", "anchors": ["cmd/load.go", "cmd/structs.go:AddResult"]}
{"id": "C76", "title": "Load session bound", "statement": "At most 2*threads R sessions run at once.", "quantifier": "all schedules", "why_tests_cant": "The Go runtime picks among unboundedly many interleavings; a test run exercises one.", "anchors": ["cmd/load.go"]}
{"id": "C77", "title": "Load always finishes", "statement": "The load check finishes for every thread setting.", "quantifier": "all settings and schedules", "why_tests_cant": "The Go runtime picks among unboundedly many interleavings; a test run exercises one.", "anchors": ["cmd/load.go"]}
{"id": "C78", "title": "Customization lookup", "statement": "Looking up a package or repository customization returns the first configured entry of that name, and whether any exists.", "quantifier": "all configurations", "why_tests_cant": "The input domain is infinite; tests sample a few literals.", "anchors": ["configlib/get_customization.go"]}
{"id": "C79", "title": "R executable path", "statement": "The R executable used is 'R' (on windows 'R.exe') when no path is configured, and otherwise the file the configured path denotes; on windows it ends in .exe; Rscript is the file beside it with 'script' added to the name.", "quantifier": "all settings and platforms", "why_tests_cant": "The input domain is infinite; tests sample a few literals.", "anchors": ["rcmd/Rsettings.go:R", "rcmd/RunR.go:convertToRscript"]}
{"id": "C80", "title": "R version detection", "statement": "From the output of 'R --version', the version found is the one on the first line starting with 'R version', whatever else is printed.", "quantifier": "all outputs", "why_tests_cant": "The input domain is infinite; tests sample a few literals.", "anchors": ["rcmd/Rsettings.go:parseVersionData"]}
{"id": "C81", "title": "Reported success means installed", "statement": "When the two-pass installer reports success (exit code 0 and no error), the package is in the target library.", "quantifier": "all libraries, packages, downloads and outcomes of R", "why_tests_cant": "Every failing file operation and every crash point of every plan would have to be enumerated.", "anchors": ["rcmd/install.go:InstallThroughBinary", "rcmd/install.go:Install"]}
{"id": "C82", "title": "Packages are fetched from the directory whose index was read", "statement": "The URL a package is fetched from is the directory of the PACKAGES index it was found in, followed by the file name.", "quantifier": "all repositories, package types and platforms", "why_tests_cant": "The input domain is infinite; tests sample a few literals.", "anchors": ["cran/download-package.go:DownloadPackage", "cran/repodb.go:FetchPackages"]}
{"id": "C83", "title": "A repository's settings come from one entry", "statement": "When the customizations name a repository more than once, the source type and the URL suffix used for it come from the same entry.", "quantifier": "all configurations and map iteration orders", "why_tests_cant": "The input domain is infinite; tests sample a few literals.", "anchors": ["cmd/plan.go:planInstall", "configlib/get_customization.go:GetRepoCustomizationByName"]}
{"id": "C84", "title": "The configured R comes first in PATH", "statement": "When the configured R path has a directory, R processes see a PATH that starts with this directory.", "quantifier": "all R paths, inherited environments and configurations", "why_tests_cant": "The input domain is infinite; tests sample a few literals.", "anchors": ["rcmd/configure.go:configureEnv"]}
{"id": "C85", "title": "Repositories keep their configured order", "statement": "Repositories are searched in the order of the configuration, in every run.", "quantifier": "all repository lists and map iteration orders", "why_tests_cant": "The input domain is infinite; tests sample a few literals.", "anchors": ["cmd/plan.go:planInstall"]}
{"id": "C86", "title": "A repository's database is what its index files list", "statement": "When no young cache file is there, an opened repository offers exactly the packages that its source index lists, and, where the platform has binaries of that kind of repository, those its binary index lists; all configured repositories are there in the configured order, whichever answers first; a repository whose indices are usable does open.", "quantifier": "all repository lists, settings, platforms, index texts, arrival orders", "why_tests_cant": "The Go runtime picks among unboundedly many interleavings; a test run exercises one.", "anchors": ["cran/repodb.go:NewRepoDb", "cran/repodb.go:FetchPackages", "cran/pkg_nexus.go:NewPkgDb"]}
{"id": "C87", "title": "A cached database gives the same answer", "statement": "Once a repository was opened, every later run within the cache's life time sees the same packages, whatever the network does and whatever was opened in between; a run that is interrupted does not spoil later runs.", "quantifier": "all histories of runs and crash points", "why_tests_cant": "Every failing file operation and every crash point of every plan would have to be enumerated.", "anchors": ["cran/repodb.go:FetchPackages", "cran/repodb.go:Decode", "cran/repodb.go:Encode"]}
{"id": "C88", "title": "Package customizations decide where a package comes from", "statement": "A package is taken from the first configured repository that is the one set for it (if one is set) and that offers it in the type set for it (else the default); ignored packages are never obtained; a customization is rejected iff it names an unknown repository or type.", "quantifier": "all configurations and databases", "why_tests_cant": "The input domain is infinite; tests sample a few literals.", "anchors": ["configlib/config.go:SetPlanCustomizations", "cran/pkg_nexus.go:GetPackage", "cran/pkg_nexus.go:SetPackageRepo"]}
{"id": "C89", "title": "From configuration and index files to downloads", "statement": "The packages planned are exactly what the configuration and the published index files require, each downloaded once, from the first configured repository that can supply it, from the directory of the index that lists it, whatever order repositories answer in.", "quantifier": "all projects, index texts, platforms, arrival and iteration orders", "why_tests_cant": "The Go runtime picks among unboundedly many interleavings; a test run exercises one.", "anchors": ["cmd/plan.go:planInstall", "cran/pkg_nexus.go:NewPkgDb", "gpsr/solution.go:ResolveInstallationReqs", "cran/download-package.go:DownloadPackage"]}
{"id": "C90", "title": "The library during a parallel installation", "statement": "At every moment of a parallel installation, whatever the interleaving of the workers and of the R processes, the library differs from its initial contents only in the directories and locks of planned packages that were not installed at the start; a crash at any moment leaves such a state.", "quantifier": "all plans, worker counts, interleavings, R behaviours within its contract, crash points", "why_tests_cant": "The Go runtime picks among unboundedly many interleavings; a test run exercises one.", "anchors": ["rcmd/install.go:InstallPackagePlan", "rcmd/install.go:InstallThroughBinary", "rcmd/worker.go:Start"]}
{"id": "C91", "title": "Dependencies are in the library while R runs", "statement": "Whenever an R process builds or installs a package, all packages it depends on, directly or not, are completely installed in the library, whatever the other workers are doing.", "quantifier": "all plans, worker counts, interleavings, R behaviours within its contract", "why_tests_cant": "The Go runtime picks among unboundedly many interleavings; a test run exercises one.", "anchors": ["rcmd/install.go:InstallPackagePlan", "rcmd/install.go:InstallThroughBinary"]}
{"id": "C92", "title": "A run without error leaves every planned package in the library", "statement": "When the parallel installation returns without an error, every planned package is completely installed in the library.", "quantifier": "all plans, worker counts, interleavings, R behaviours within its contract, file systems", "why_tests_cant": "The Go runtime picks among unboundedly many interleavings; a test run exercises one.", "anchors": ["rcmd/install.go:InstallPackagePlan", "rcmd/install.go:Install"]}
{"id": "C93", "title": "The binary cache holds complete binaries and only grows", "statement": "A file at a place where later runs look for a cached binary is always a complete binary, and the installation changes nothing else in the cache.", "quantifier": "all plans, interleavings, crash points", "why_tests_cant": "Every failing file operation and every crash point of every plan would have to be enumerated.", "anchors": ["rcmd/install.go:InstallPackagePlan", "rcmd/install.go:isInCache"]}
{"id": "C94", "title": "An interrupted installation is made good", "statement": "When a run is interrupted at any moment, a later run that ends without an error leaves every planned package completely installed; what the interrupted installation left is not taken for an installed package.", "quantifier": "all plans, interleavings, crash points, R behaviours within its contract", "why_tests_cant": "Every failing file operation and every crash point of every plan would have to be enumerated.", "anchors": ["rcmd/install.go:InstallThroughBinary", "rcmd/install.go:Install"]}
{"id": "C95", "title": "The dependency tree is complete and printing it ends", "statement": "For every plan, 'inspect --deps --tree' ends and prints, below every selected package, exactly the chains of planned packages in which each needs the next one directly or indirectly, siblings distinct and in alphabetical order.", "quantifier": "all plans, selections and map iteration orders", "why_tests_cant": "The input domain is infinite; tests sample a few literals.", "anchors": ["cmd/inspect.go:recurseDeps", "cmd/inspect.go:printDeps"]}
{"id": "C96", "title": "The dependency table shows what is asked for", "statement": "'inspect --deps' lists for every planned package that needs something all it needs, directly or not; with --reverse for every needed package all that need it; with arguments exactly the named packages; and --tree shows the same relation.", "quantifier": "all plans, selections and map iteration orders", "why_tests_cant": "The input domain is infinite; tests sample a few literals.", "anchors": ["cmd/inspect.go:inspect", "gpsr/dependencies.go:InvertDependencies"]}
{"id": "C97", "title": "load --all loads every planned package", "statement": "'load --all' tries to load every package of the plan, each once, and every tarball package; without --all exactly the configured packages.", "quantifier": "all configurations, repositories and iteration orders", "why_tests_cant": "The input domain is infinite; tests sample a few literals.", "anchors": ["cmd/load.go:load", "gpsr/dependencies.go:GetAllPackages"]}
{"id": "C98", "title": "Every installed package is attributed to one installer", "statement": "Of the packages in the library, exactly those whose DESCRIPTION carries a pkgr version are reported as installed by pkgr, all others as not; each package is reported once.", "quantifier": "all libraries and map iteration orders", "why_tests_cant": "The input domain is infinite; tests sample a few literals.", "anchors": ["pacman/utils.go:GetInstallers", "pacman/utils.go:NotFromPkgr"]}
{"id": "C99", "title": "R's command line says what the settings say", "statement": "The arguments of R CMD INSTALL are exactly the options that are switched on, one --library argument with the library verbatim, and the file; different settings give different command lines; the building pass names only the temporary library, the installing passes only the target library and never --build.", "quantifier": "all settings, library names and files", "why_tests_cant": "The input domain is infinite; tests sample a few literals.", "anchors": ["rcmd/install.go:CliArgs", "rcmd/install.go:Install", "rcmd/install.go:InstallThroughBinary"]}
{"id": "C100", "title": "Environment variables in the configuration", "statement": "In the configuration text every $NAME and ${NAME} is replaced by the variable's value, once, from left to right, text without dollar signs is unchanged, and a reference never affects another line.", "quantifier": "all texts and environments", "why_tests_cant": "The input domain is infinite; tests sample a few literals.", "anchors": ["configlib/config.go:loadConfigFromPath"]}
{"id": "C101", "title": "Home directory in configured paths", "statement": "In a configured path '~' denotes the home directory and '~/x' the file x in it; other paths are unchanged; '~name' is refused.", "quantifier": "all paths and home directories", "why_tests_cant": "The input domain is infinite; tests sample a few literals.", "anchors": ["configlib/config.go:expandTilde"]}
{"id": "C102", "title": "Which library is used", "statement": "The library named on the command line, in PKGR_LIBRARY or in the file, the first of these, is used whatever lockfile is configured; otherwise packrat's directory or what renv says; otherwise the run ends.", "quantifier": "all settings", "why_tests_cant": "The input domain is infinite; tests sample a few literals.", "anchors": ["configlib/config.go:NewConfig", "configlib/config.go:getLibraryPath"]}
{"id": "C103", "title": "renv is asked about the right project", "statement": "What renv prints is found exactly, whatever R prints around it, and R and renv are asked in the directory of the configuration file.", "quantifier": "all outputs, working directories and configuration files", "why_tests_cant": "The input domain is infinite; tests sample a few literals.", "anchors": ["configlib/config.go:getRenvLibrary", "cmd/root.go:initConfig"]}
{"id": "C104", "title": "The Linux distribution is read off os-release", "statement": "Name, version and code name used for linux binaries are those the os-release file states.", "quantifier": "all os-release files", "why_tests_cant": "The input domain is infinite; tests sample a few literals.", "anchors": ["cran/utils.go:ReadOsRelease"]}
{"id": "C105", "title": "Directory of linux binaries", "statement": "Linux binaries are looked for under ubuntu/<code name>, centos/<major version> for CentOS and RHEL, and <name>/<version> otherwise, only on distributions known to have binaries.", "quantifier": "all distributions and versions", "why_tests_cant": "The input domain is infinite; tests sample a few literals.", "anchors": ["cran/utils.go:getLinuxBinaryUri", "cran/utils.go:linuxKnownSupportsBinary"]}
{"id": "C106", "title": "Tarballs are unpacked and recorded", "statement": "For every list of tarballs that unpacks, each package given as a tarball is recorded once, with the folder unpacked from the last tarball of that name, and that folder holds the tarball's complete contents, whatever was unpacked before or after.", "quantifier": "all tarball lists and caches", "why_tests_cant": "The input domain is infinite; tests sample a few literals.", "anchors": ["cmd/tarballOps.go:unpackTarballs", "cmd/tarballOps.go:untar"]}
{"id": "C107", "title": "The order in which tarballs are installed does not matter", "statement": "Installing the packages given as tarballs ends the same way whatever order the table of tarballs is iterated in: a tarball that needs another one is installed after it.", "quantifier": "all tarball sets and map iteration orders", "why_tests_cant": "The input domain is infinite; tests sample a few literals.", "anchors": ["cmd/install.go:installAdditionalPackages", "rcmd/install.go:InstallPackagePlan"]}
{"id": "C108", "title": "The reported installation sources add up", "statement": "For every repository the number reported is the number of planned packages taken from it, the number of tarballs is the number of packages given as tarballs, and the numbers add up to the number of packages required.", "quantifier": "all plans", "why_tests_cant": "The input domain is infinite; tests sample a few literals.", "anchors": ["cmd/plan.go:planInstall"]}
{"id": "C109", "title": "The list of packages to install is exact", "statement": "When some of the planned packages are in the library and others are to be installed, the plan lists exactly those to be installed, with the version and place they are taken from.", "quantifier": "all plans, libraries and map iteration orders", "why_tests_cant": "The input domain is infinite; tests sample a few literals.", "anchors": ["cmd/plan.go:planInstall", "gpsr/dependencies.go:GetNumPackagesToInstall"]}
{"id": "C110", "title": "A run as a whole", "statement": "When 'pkgr install' reports no failure, every package of the plan is completely installed, packages not to be replaced are untouched, no backup is left and nothing else in the library has changed; when it reports a failure with rollback on, the library is what it was; when it is interrupted before backups are deleted, every package that was installed is at its place or in its backup - provided the library was in order at the start, the downloads delivered the package files and no I/O error occurred.", "quantifier": "all plans, libraries, interleavings of the workers, R behaviours within its contract, crash points", "why_tests_cant": "The Go runtime picks among unboundedly many interleavings; a test run exercises one.", "anchors": ["cmd/install.go:rInstall", "rcmd/install.go:InstallPackagePlan", "rollback/operations.go:RollbackPackageEnvironment"]}
{"id": "C111", "title": "Installing twice", "statement": "After a 'pkgr install' with updates that reported no failure, planning again finds the same packages, none of them outdated, and installing again changes nothing in the library (no tarballs given, the library in order at the start, repositories unchanged).", "quantifier": "all configurations, repositories, libraries, interleavings and map iteration orders", "why_tests_cant": "The Go runtime picks among unboundedly many interleavings; a test run exercises one.", "anchors": ["cmd/install.go:rInstall", "cmd/plan.go:planInstall", "pacman/utils.go:GetPriorInstalledPackages"]}
{"id": "C112", "title": "NoRollback keeps what was installed and loses nothing", "statement": "With NoRollback set, a failed 'pkgr install' undoes nothing: what the installations left in the library stays, every package successfully installed stays installed, and a package that was installed before the run is still installed afterwards, in its old version or a new one.", "quantifier": "all plans, libraries, interleavings, outcomes of R and of the downloads", "why_tests_cant": "The Go runtime picks among unboundedly many interleavings; a test run exercises one.", "anchors": ["cmd/install.go:rInstall", "rollback/operations.go:DeleteBackupPackageFolders", "rollback/operations.go:RollbackPackageEnvironment"]}
{"id": "C113", "title": "Contents of the load report", "statement": "In the report of 'pkgr load' each tested package has a result, whatever the order in which the sessions end: a success iff R could load it (library() ended with status zero), with exactly the path and version R prints for it; and the report's library paths are exactly those R reports.", "quantifier": "all lists of packages, schedules, outputs of R", "why_tests_cant": "The Go runtime picks among unboundedly many interleavings; a test run exercises one.", "anchors": ["cmd/load.go:attemptLoad", "cmd/load.go:getAdditionalPkgInfo", "cmd/load.go:getRSessionLibPaths", "rcmd/rp/lines.go:ScanROutput"]}
{"id": "C114", "title": "The load check runs where the project is", "statement": "The R sessions of 'pkgr load' run in the directory of the configuration file, however this file is named on the command line.", "quantifier": "all current directories and values of --config", "why_tests_cant": "The input domain is infinite; tests sample a few literals.", "anchors": ["cmd/load.go:loadCmd", "cmd/root.go:initConfig"]}
{"id": "C115", "title": "The session of pkgr run", "statement": "'pkgr run' starts the configured R in the project's directory so that packages come from only the configuration's library and R's own, with --pkg in the environment the package is installed with, and reports by its exit status whether R could be started and ended well.", "quantifier": "all configurations, inherited environments, outcomes of R", "why_tests_cant": "Go map iteration order is random and plan inputs are unbounded; a test run sees one order of one input.", "anchors": ["cmd/run.go:rRun", "rcmd/RunR.go:StartR", "configlib/get_customization.go:GetPackageCustomizationByName"]}
{"id": "C116", "title": "add and remove edit the configuration in use", "statement": "'pkgr add' and 'pkgr remove' edit the configuration file that pkgr uses, however it is named by --config, and 'add --install' installs what the edited file says.", "quantifier": "all current directories and values of --config", "why_tests_cant": "The input domain is infinite; tests sample a few literals.", "anchors": ["cmd/add.go:rAdd", "cmd/remove.go:rRemove", "configlib/add_package.go:AddPackages", "cmd/root.go:initConfig"]}
{"id": "C117", "title": "Configuration edits are all or nothing", "statement": "At every moment of 'pkgr add' and 'pkgr remove', in particular when they are interrupted, the configuration file has its old or its new content, and no other file changes; a command that fails changes nothing.", "quantifier": "all files, arguments and crash points", "why_tests_cant": "Every failing file operation and every crash point of every plan would have to be enumerated.", "anchors": ["configlib/config.go:remove", "configlib/add_package.go:AddPackages"]}
{"id": "C118", "title": "From the repositories to the library", "statement": "When 'pkgr install' reports no failure, every package of the plan is completely installed whatever the interleaving of the concurrent downloads and of the concurrent installations: the downloader leaves every package file where the installer looks for it, never touches the library, and different packages never share a file in the cache - provided what is in the cache is what it should be, the repositories deliver the rest and R keeps its contract.", "quantifier": "all plans, caches, repositories, interleavings of downloads and of workers, R behaviours within its contract", "why_tests_cant": "The Go runtime picks among unboundedly many interleavings; a test run exercises one.", "anchors": ["cmd/install.go:rInstall", "cran/download-package.go:DownloadPackages", "rcmd/install.go:InstallPackagePlan", "rcmd/install.go:isInCache"]}
{"id": "C119", "title": "A package that cannot be obtained is not passed over silently", "statement": "If nothing could be downloaded for a package of the plan and it is neither installed nor in the cache, the installation ends with an error: it does not report success, the package is not counted as installed, and no package that needs it is installed on top of the gap.", "quantifier": "all plans, contents of library and cache, working directories, interleavings of the workers, R behaviours within its contract", "why_tests_cant": "The Go runtime picks among unboundedly many interleavings; a test run exercises one.", "anchors": ["cmd/install.go:rInstall", "cran/download-package.go:DownloadPackages", "rcmd/install.go:InstallPackagePlan", "rcmd/install.go:InstallThroughBinary", "rcmd/helpers.go:binaryExtOs"]}
{"id": "C120", "title": "The log file", "statement": "Every command writes its log records to the file configured by Logging ('all', or 'install' for 'pkgr install'): appended to what is there, or with 'overwrite' in its place, each record that is shown once and in order, up to the error that ends the command; logging touches no other file.", "quantifier": "all configurations, commands and sequences of records", "why_tests_cant": "The input domain is infinite; tests sample a few literals.", "anchors": ["logger/logger.go:AddLogFile", "logger/logger.go:Fire", "cmd/install.go:initInstallLog", "cmd/add.go:initAddLog", "cmd/remove.go:initRemoveLog", "cmd/inspect.go:inspect", "cmd/clean.go:clean"]}
{"id": "C121", "title": "The log level decides what is shown", "statement": "With --loglevel, in whatever case the level is written, exactly the records at least as severe as the level are shown, in order; whatever is not a level means info; with --json only fatal records are shown once the configuration was read.", "quantifier": "all words, commands and sequences of records", "why_tests_cant": "The input domain is infinite; tests sample a few literals.", "anchors": ["logger/logger.go:SetLogLevel", "cmd/root.go:setGlobals"]}
{"id": "C122", "title": "An error that ends pkgr is reported", "statement": "When pkgr ends because of an error, the error is the last thing it shows.", "quantifier": "all levels, commands and sequences of records", "why_tests_cant": "The input domain is infinite; tests sample a few literals.", "anchors": ["logger/logger.go:SetLogLevel", "cmd/root.go:initConfig"]}
{"id": "C123", "title": "--json prints a JSON document", "statement": "With --json, the output of 'load' and 'inspect' is the document and nothing else.", "quantifier": "all levels, environments and sequences of records", "why_tests_cant": "The input domain is infinite; tests sample a few literals.", "anchors": ["cmd/load.go:load", "cmd/inspect.go:inspect", "cran/repodb.go:GetRepoDbCacheFilePath"]}
{"id": "C124", "title": "Customizations mean what is written", "statement": "A customization of a package takes effect whatever the case its keys are written in, as with all other keys of the configuration file, and an entry without settings changes nothing.", "quantifier": "all customization entries, configurations and packages", "why_tests_cant": "The input domain is infinite; tests sample a few literals.", "anchors": ["configlib/config.go:IsCustomizationSet", "configlib/config.go:SetPlanCustomizations", "configlib/structs.go:PkgConfig"]}
{"id": "C125", "title": "After cleaning package databases, the next run asks the repositories", "statement": "Once 'pkgr clean pkgdbs' has come to its end, a later run with the same R knows about each selected repository exactly what it publishes by then, whatever was cached before; databases of repositories that were not selected are left alone.", "quantifier": "all configurations, cached databases, answers of the repositories before and after, schedules", "why_tests_cant": "The input domain is infinite; tests sample a few literals.", "anchors": ["cmd/cleanPkgdb.go:removePackageDatabases", "cmd/cleanPkgdb.go:cleanPackageDatabases", "cran/repodb.go:FetchPackages"]}
{"id": "C126", "title": "Cleaning works whatever is cached and reachable", "statement": "'pkgr clean pkgdbs' removes the databases of the selected repositories whatever is in them, whether or not the repositories can be reached, and whatever packages the configuration asks for.", "quantifier": "all cached databases (also damaged ones), answers of the repositories, configurations", "why_tests_cant": "The input domain is infinite; tests sample a few literals.", "anchors": ["cmd/cleanPkgdb.go:cleanPackageDatabases", "cmd/plan.go:planInstall", "cran/repodb.go:FetchPackages"]}
{"id": "C127", "title": "clean --all leaves nothing cached", "statement": "When 'pkgr clean --all' has come to its end, no package file, no unpacked tarball and no database of a configured repository is left in the caches; without --all, 'pkgr clean' removes nothing.", "quantifier": "all configurations, cache contents, answers of the repositories", "why_tests_cant": "The input domain is infinite; tests sample a few literals.", "anchors": ["cmd/clean.go:clean", "cmd/cleanCache.go:cleanCacheFolders", "cmd/cleanPkgdb.go:cleanPackageDatabases"]}
{"id": "C128", "title": "The table of downloads is shared safely", "statement": "Whatever goroutines store, remove and look up in the table of downloads and however they interleave: no two of them access the map at the same time while one changes it; the calls behave as the calls of one goroutine on an ordinary table, in an order that respects which call returned before which was made; a stored download is not lost and is seen by every later lookup; and the goroutines never block each other for ever.", "quantifier": "all programs of calls, all numbers of goroutines, all schedules", "why_tests_cant": "The Go runtime picks among unboundedly many interleavings; a test run exercises one.", "anchors": ["cran/sync.go:Put", "cran/sync.go:Get", "cran/sync.go:Delete", "cran/sync.go:NewPkgMap"]}
{"id": "C129", "title": "The traceability matrix check", "statement": "checkmat ends with status 0 exactly if the matrix is in order: every file it names has a proper relative name and exists, the documentation of every entry not to be skipped carries the entry point's name, no entry point has two entries, and every file of the documentation directory has an entry; what it prints is exactly the list of problems.", "quantifier": "all matrices, file systems and documentation directories", "why_tests_cant": "The input domain is infinite; tests sample a few literals.", "anchors": ["internal/valtools/checkmat/main.go:check", "internal/valtools/checkmat/main.go:checkMissingEntries"]}
{"id": "C130", "title": "Coverage figures", "statement": "filecov reports each file of the profile once, in order, with the percentage of its statements that the tests have run (0 for a file without statements), and as overall coverage the percentage for all statements; with -mod only the names change, to those relative to the module.", "quantifier": "all coverage profiles, module names and directories", "why_tests_cant": "The input domain is infinite; tests sample a few literals.", "anchors": ["internal/valtools/filecov/main.go:percentCovered", "internal/valtools/filecov/main.go:shortenFileNames"]}
{"id": "C131", "title": "Test summary", "statement": "fmttests prints a line for each test result in order (passing subtests only if asked for), on the error stream what the failed tests had printed, and ends with status 1 exactly if the run has a fail record, or a skip record without -allow-skips, and with status 2 if a line cannot be understood.", "quantifier": "all test runs and flags", "why_tests_cant": "The input domain is infinite; tests sample a few literals.", "anchors": ["internal/valtools/fmttests/main.go:processEvents", "internal/valtools/fmttests/main.go:main"]}
{"id": "C132", "title": "Looking a package up in one repository", "statement": "Looking a package up in a named repository finds it exactly if that repository offers it in the type in force for the package.", "quantifier": "all databases, packages, repositories and settings", "why_tests_cant": "The input domain is infinite; tests sample a few literals.", "anchors": ["cran/pkg_nexus.go:GetPackageFromRepo"]}
{"id": "C133", "title": "One R for everything", "statement": "Every R process of a command is of the R that is configured (a tilde in its path expanded), R is asked for its version once for each settings object, which then always says the same, and a command that cannot learn the version ends; renv is asked for its library exactly if the library is left to its lockfile.", "quantifier": "all configurations, lockfiles and answers of R", "why_tests_cant": "The input domain is infinite; tests sample a few literals.", "anchors": ["rcmd/Rsettings.go:NewRSettings", "rcmd/Rsettings.go:GetRVersion", "configlib/config.go:NewConfig", "configlib/config.go:getRenvLibrary"]}
{"id": "C134", "title": "An interrupted installation can be repeated", "statement": "After any number of runs of 'pkgr install' that were interrupted, at whatever moments, a further run takes up where they left off: if it fails with rollback on, every package that was installed before the interrupted runs is back at its place as it was; if it reports no failure, no backup of a package is left.", "quantifier": "all libraries, plans, sequences of interrupted runs, crash points and interleavings", "why_tests_cant": "Every failing file operation and every crash point of every plan would have to be enumerated.", "anchors": ["rollback/types.go:PreparePackagesForUpdate", "rollback/operations.go:tagOldInstallation", "rollback/operations.go:RollbackPackageEnvironment", "rollback/operations.go:DeleteBackupPackageFolders", "pacman/utils.go:GetPriorInstalledPackages"]}
{"id": "C135", "title": "Options, environment, file, defaults", "statement": "Each setting of a run is what the command line says about it; if it says nothing, what PKGR_LIBRARY or PKGR_RPATH says (if not empty); then what the configuration file says; then the default. --update prevails over whatever forbids updates, a value that cannot be read ends pkgr, the log level and format follow the same rule, and an option that is not a setting of the file (--config, load --all, load --json, plan --show-deps) counts only if it is given.", "quantifier": "all command lines, environments and configuration files", "why_tests_cant": "The input domain is infinite; tests sample a few literals.", "anchors": ["cmd/root.go:rootInit", "cmd/root.go:initConfig", "cmd/root.go:setGlobals", "configlib/config.go:loadConfigFromPath", "configlib/config.go:loadDefaultSettings", "cmd/load.go:loadCmd", "cmd/plan.go:plan"]}
{"id": "C136", "title": "From pkgr.yml to the library", "statement": "When 'pkgr install' reports no failure, every package that pkgr.yml lists, that its tarballs or the project's DESCRIPTION files require, and everything these need as far as the repositories have it, is in the library in a version not older than the one the repositories publish for the project, and what pkgr.yml gives as tarballs is installed from them; what was there and not older is untouched, and nothing else in the library has changed - whatever order the repositories answer in and however downloads and installations interleave.", "quantifier": "all projects, index texts, caches, libraries, interleavings and map iteration orders, R behaviours within its contract", "why_tests_cant": "The Go runtime picks among unboundedly many interleavings; a test run exercises one.", "anchors": ["cmd/install.go:rInstall", "cmd/plan.go:planInstall", "cran/pkg_nexus.go:NewPkgDb", "gpsr/solution.go:ResolveInstallationReqs", "cran/download-package.go:DownloadPackages", "rcmd/install.go:InstallPackagePlan"]}
{"id": "C137", "title": "Running the same project again", "statement": "After 'pkgr install' reported no failure, running it again for the same project while the repositories publish the same plans the same packages, finds all of them installed and none outdated, and changes nothing in the library at any moment, however the second run goes and whether the cached databases are still young or not.", "quantifier": "all projects, index texts, caches, libraries, interleavings, crash points of the second run", "why_tests_cant": "The Go runtime picks among unboundedly many interleavings; a test run exercises one.", "anchors": ["cmd/install.go:rInstall", "cmd/plan.go:planInstall", "pacman/utils.go:GetPriorInstalledPackages", "cran/repodb.go:FetchPackages"]}
{"id": "C138", "title": "A project's library survives failures", "statement": "When 'pkgr install' reports a failure with rollback on, the library is what it was; wherever it is interrupted before backups are deleted, every wanted package that was installed is whole, at its place or in its backup; and at no moment anything changes in the library that is neither a wanted package, a backup of one, nor an R lock.", "quantifier": "all projects, index texts, caches, libraries, interleavings, failures and crash points", "why_tests_cant": "Every failing file operation and every crash point of every plan would have to be enumerated.", "anchors": ["cmd/install.go:rInstall", "cmd/plan.go:planInstall", "rollback/operations.go:RollbackPackageEnvironment"]}
{"id": "C139", "title": "A repository that cannot be read is not used", "statement": "When an index that pkgr needs cannot be connected to, is refused, or cannot be read, the command ends with an error, uses nothing of that repository and leaves no database of it in the cache; otherwise the repository opens.", "quantifier": "all servers' answers, index texts, platforms, caches, arrival orders", "why_tests_cant": "The input domain is infinite; tests sample a few literals.", "anchors": ["cran/repodb.go:FetchPackages", "cran/repodb.go:NewRepoDb", "desc/desc.go:NewDesc"]}
{"id": "C140", "title": "Nothing is left in the temporary directory", "statement": "When the installation of a package has ended, pkgr has left nothing behind in the temporary directory: neither the copy of the package it installed there to build it, nor the binary, nor the directory it made for it.", "quantifier": "all packages, R behaviours, library states, failures", "why_tests_cant": "The input domain is infinite; tests sample a few literals.", "anchors": ["rcmd/install.go:InstallThroughBinary", "rcmd/configure.go:configureEnv"]}
{"id": "C141", "title": "Several runs may share a package cache", "statement": "Several pkgr runs may use one package cache at the same time: every package file a run is given is complete, files that are already there are never touched, and a run's downloads end as if it were alone.", "quantifier": "all numbers of runs, files, contents and all interleavings of the checks, requests and single writes", "why_tests_cant": "The Go runtime picks among unboundedly many interleavings; a test run exercises one.", "anchors": ["cran/download-package.go:DownloadPackage", "cran/download-package.go:DownloadPackages"]}
{"id": "C142", "title": "Several runs in one library", "statement": "Several pkgr runs may work on one library at the same time: what a run has reported as installed is in the library when all of them are over, and what another run has installed is not removed by a run that fails.", "quantifier": "all plans, libraries and interleavings of the runs' installations, rollbacks and clean-ups", "why_tests_cant": "The Go runtime picks among unboundedly many interleavings; a test run exercises one.", "anchors": ["cmd/install.go:rInstall", "rollback/operations.go:RollbackPackageEnvironment", "rollback/operations.go:DeleteBackupPackageFolders", "rollback/operations.go:tagOldInstallation"]}
{"id": "C143", "title": "Announced updates", "statement": "The packages announced as to be updated, and their number, are exactly those the installation updates, with the version in the library and the one it will be updated to; with updates switched off none is announced; the number of packages required is the number of packages of the plan.", "quantifier": "all configurations, repositories, libraries and map iteration orders", "why_tests_cant": "Go map iteration order is random and plan inputs are unbounded; a test run sees one order of one input.", "anchors": ["cmd/plan.go:planInstall", "gpsr/solution.go:ResolveInstallationReqs", "rollback/types.go:PreparePackagesForUpdate"]}
{"id": "C144", "title": "Where each package comes from is reported", "statement": "For every planned package exactly one record says in which version, from which repository and in which type it will be downloaded, and whether it was asked for or is a dependency; for every tarball one record says where it comes from.", "quantifier": "all configurations, repositories and map iteration orders", "why_tests_cant": "Go map iteration order is random and plan inputs are unbounded; a test run sees one order of one input.", "anchors": ["cmd/plan.go:logUserPackageRepos", "cmd/plan.go:logDependencyRepos", "cmd/plan.go:logAdditionalPackageOrigins"]}
{"id": "C145", "title": "The JSON documents that pkgr prints can be read back and say what was found", "statement": "The document printed by `load --json`, `inspect --deps` and `inspect --installed-from` is well-formed JSON (RFC 8259) whatever package names, paths, versions and R output it contains (quotation marks, backslashes, line breaks, control characters), and a reader gets exactly the values that were to be printed: for `load`, of every package that was to be loaded and of no other whether it could be loaded and what R wrote, and the number of failures; for `inspect --deps`, under each name asked for the alphabetical list of exactly the packages it needs directly or indirectly; for `--installed-from`, each installed package in the list of those installed by pkgr or of the others. Different results are never printed alike.", "quantifier": "for every report, plan, library and text that occurs in them, every order in which loads end and every map iteration order", "why_tests_cant": "The input domain is infinite; tests sample a few literals.", "anchors": ["cmd/utils.go:JsonMarshal", "cmd/load.go:printJsonLoadReport", "cmd/experiment.go:prettyPrint", "cmd/inspect.go:printDeps", "cmd/inspect.go:printInstalledFromPackages", "cmd/structs.go:LoadReport", "cmd/structs.go:LoadResult", "pacman/utils.go:GetPackagesByInstalledFrom"]}
{"id": "C146", "title": "Several runs may share the database cache", "statement": "Any number of runs may open the same repository at the same time, one after the other, or be interrupted at any point: every run that opens it gets a database that the repository published and that was fetched in full (by itself or an earlier run), never a part of one or a mixture of two, and no run fails because another one is using, has used or was interrupted while using the cache.", "quantifier": "for every number of runs, every interleaving of their file operations (stat, remove, create, partial writes, partial reads), every interruption, every cache age setting", "why_tests_cant": "The Go runtime picks among unboundedly many interleavings; a test run exercises one.", "anchors": ["cran/repodb.go:FetchPackages", "cran/repodb.go:Encode", "cran/repodb.go:Decode"]}
{"id": "C147", "title": "Planning and inspecting change nothing in the library or the project", "statement": "`pkgr plan` and `pkgr inspect`, and the planning that `load`, `install` and `clean` begin with, change no file of the library, the project or elsewhere, at no moment, even when they fail or are interrupted; they only unpack the configured tarballs into the cache, and what they log changes no other file than the configured log file.", "quantifier": "for every file system, configuration, set of tarballs (also broken or hostile ones) and interruption", "why_tests_cant": "Every failing file operation and every crash point of every plan would have to be enumerated.", "anchors": ["cmd/plan.go:planInstall", "cmd/tarballOps.go:unpackTarballs", "cmd/tarballOps.go:untar", "logger/logger.go:AddLogFile", "cmd/inspect.go:inspect"]}
{"id": "C148", "title": "Planning ends with a plan or a report, never with a crash", "statement": "Given opened repositories, planning ends in exactly one way, determined by the configuration, the repositories and the library: a customization that cannot be understood is reported, the requested packages that cannot be obtained are reported, a circular dependency is reported, and otherwise there is a plan; it never crashes.", "quantifier": "for every configuration, repository database, library content and map iteration order", "why_tests_cant": "The input domain is infinite; tests sample a few literals.", "anchors": ["cmd/plan.go:planInstall", "gpsr/solution.go:ResolveInstallationReqs", "pacman/utils.go:GetOutdatedPackages", "desc/version.go:ParseVersion"]}
{"id": "C149", "title": "A repository that is a directory", "statement": "A repository given as a directory, absolute or relative to the configuration file, is that directory: its index is src/contrib/PACKAGES in it, a package that is needed is a copy of the file in its src/contrib, a file that is missing or cannot be read is reported, and what was cached for another directory is never taken for it.", "quantifier": "for every file system, configuration directory, repository text, and cache left by other projects", "why_tests_cant": "The input domain is infinite; tests sample a few literals.", "anchors": ["cran/repodb.go:FetchPackages", "cran/repodb.go:Hash", "cran/utils.go:RepoURLHash", "cran/download-package.go:DownloadPackage"]}
{"id": "C150", "title": "Temporary directories", "statement": "Every temporary directory that pkgr makes - the one in which a package is built, and the user library given to an R process, which is to be empty - is new, empty and used by nothing else, however many are made at the same time.", "quantifier": "for every random generator, clock reading, content of the temporary directory", "why_tests_cant": "The input domain is infinite; tests sample a few literals.", "anchors": ["rcmd/utils.go:randomString", "rcmd/install.go:InstallThroughBinary", "rcmd/configure.go:configureEnv"]}
{"id": "C151", "title": "Reading a DESCRIPTION or a record of an index", "statement": "Decoding the text of a DESCRIPTION file, or of a record of an index, gives what its fields say however they are laid out - on one line, continued, with tabs, in any order, with comments, with or without a last newline - and fails exactly for a text that is not a list of fields.", "quantifier": "for every text, every list of fields and every layout of them", "why_tests_cant": "The input domain is infinite; tests sample a few literals.", "anchors": ["desc/desc.go:ParseDesc", "desc/structs.go:desc", "desc/desc.go:NewDesc"]}
{"id": "C152", "title": "The stamp is read back", "statement": "After an installation the DESCRIPTION with pkgr's stamp reads as before, in addition with pkgr's version, the type of the installation, the URL and the repository that were written; the next command finds the package in the library and reports it as installed by pkgr; stamping can be repeated.", "quantifier": "for every DESCRIPTION, stamp, library and number of installations", "why_tests_cant": "The input domain is infinite; tests sample a few literals.", "anchors": ["rcmd/install.go:updateDescriptionInfoByLines", "pacman/utils.go:scanInstalledPackage", "cmd/inspect.go:printInstalledFromPackages", "desc/desc.go:ParseDesc"]}
{"id": "C153", "title": "An index as repositories publish it", "statement": "Reading an index, that is records separated by blank lines, with Unix or Windows line ends and any number of blank lines between and after the records, gives exactly its records: for each name the last one that is for the running R and in the main directory.", "quantifier": "for every list of records, every layout, every R version", "why_tests_cant": "The input domain is infinite; tests sample a few literals.", "anchors": ["cran/repodb.go:FetchPackages", "desc/desc.go:ParseDesc", "cran/repodb.go:isRVersionCompatible"]}
{"id": "C154", "title": "What was built is not built again", "statement": "After a run that ended without an error the package cache holds, where later runs look for it, a complete binary of every package that the run got as a source package under a usual name and installed; a later run over this cache, into whatever library, builds none of them again: it calls R once for each, with the binary.", "quantifier": "for every plan, interleaving, R within its contract and library of the later run", "why_tests_cant": "The Go runtime picks among unboundedly many interleavings; a test run exercises one.", "anchors": ["rcmd/install.go:InstallPackagePlan", "rcmd/install.go:isInCache", "rcmd/install.go:InstallThroughBinary"]}
{"id": "C155", "title": "An installation in which nothing goes wrong comes to its end", "statement": "When the package files are there, R succeeds on every package all of whose dependencies are completely installed, and ends, no copy fails, there is room for what is made and the plan has at most 2500 packages plus the number of workers, an installation comes to its end: apart from writing files it takes a bounded number of steps, whatever has happened it is never stuck, and when it has come to rest it has returned without an error and every planned package is completely installed. Likewise the downloads before it: when the cache is in order and the repositories deliver, they always come to their end, and what they leave is what the installation needs.", "quantifier": "for every plan, number of workers, interleaving of workers, requester, updater and R processes, and R within its contract", "why_tests_cant": "The Go runtime picks among unboundedly many interleavings; a test run exercises one.", "anchors": ["rcmd/install.go:InstallPackagePlan", "rcmd/install.go:InstallThroughBinary", "rcmd/install.go:Install", "rcmd/worker.go:Start", "cran/download-package.go:DownloadPackages"]}
{"id": "C156", "title": "A downloaded binary is installed as it is", "statement": "A package that was downloaded as a binary is installed from the downloaded file by a single call of R, without building anything; if that call succeeds, so does the installation.", "quantifier": "for every package, version, repository, platform, library and R", "why_tests_cant": "The input domain is infinite; tests sample a few literals.", "anchors": ["rcmd/install.go:isInCache", "rcmd/install.go:InstallThroughBinary", "cran/utils.go:binaryName", "rcmd/helpers.go:binaryNameOs", "cran/download-package.go:DownloadPackages"]}
{"id": "C157", "title": "Packages are built against the project's library", "statement": "Every R process that builds or installs a package has the project's library as its only site library and an empty user library, whatever libraries are inherited or set for the package; it runs with the arguments and in the directory of its pass.", "quantifier": "all libraries, environments, customizations, packages, tarballs and passes", "why_tests_cant": "The input domain is infinite; tests sample a few literals.", "anchors": ["rcmd/install.go:InstallThroughBinary", "rcmd/install.go:Install", "rcmd/configure.go:configureEnv", "cmd/install.go:installAdditionalPackages"]}
{"id": "C158", "title": "Every R process is the configured R", "statement": "All R processes of a command - asking for the version, building, installing, tarballs, load, run - execute the same file: the one that the configured path denotes in the project, or the R found in PATH.", "quantifier": "all R paths, directories, packages and commands", "why_tests_cant": "The input domain is infinite; tests sample a few literals.", "anchors": ["rcmd/Rsettings.go:R", "rcmd/install.go:Install", "rcmd/RunR.go:RunRBatch", "rcmd/RunR.go:StartR", "cmd/load.go:runRCmd"]}
{"id": "C159", "title": "Where relative paths lead", "statement": "A library or cache named in the configuration file is the directory its path denotes from the directory of that file, so the same one wherever pkgr is started; a library named on the command line or in PKGR_LIBRARY is the directory its path denotes where pkgr is started.", "quantifier": "all start directories, configuration files and paths", "why_tests_cant": "The input domain is infinite; tests sample a few literals.", "anchors": ["cmd/root.go:initConfig", "configlib/config.go:NewConfig", "rcmd/cache.go:NewPackageCache", "cmd/utils.go:userCache"]}
{"id": "C160", "title": "A package that cannot be loaded is noticed", "statement": "If 'pkgr load' finds a package that R cannot load, the command says how many there are and ends with a non-zero exit status.", "quantifier": "all packages, schedules, R behaviours and log levels", "why_tests_cant": "The Go runtime picks among unboundedly many interleavings; a test run exercises one.", "anchors": ["cmd/load.go:load", "cmd/root.go:Execute"]}
{"id": "C161", "title": "What is in the library does not stop pkgr", "statement": "For every library, finding what is installed ends with exactly the packages that are there and can be read: a package is found iff a directory of the library has a DESCRIPTION with its name, with what that DESCRIPTION says; directories without DESCRIPTION, files that are not a DESCRIPTION and packages without name or with a field that cannot be read are passed over and do not end the program.", "quantifier": "all libraries and all texts of the DESCRIPTION files in them, whoever installed the packages", "why_tests_cant": "The input domain is infinite; tests sample a few literals.", "anchors": ["pacman/utils.go:GetPriorInstalledPackages", "pacman/utils.go:scanInstalledPackage", "desc/desc.go:ParseDesc", "desc/desc.go:ParseDep"]}
{"id": "C162", "title": "Planning from the files on", "statement": "For every library, set of tarballs and DESCRIPTION files, configuration and answer of the repositories, planning ends with a plan or with a report, never with a crash; and the plan is made of what these files say: of the packages that the DESCRIPTIONs in the library describe, the packages that the unpacked tarballs describe, in the order of the configuration, and the listed DESCRIPTION files, while the library stays as it is.", "quantifier": "every content of the library, the cache, the tarballs and the DESCRIPTION files, every configuration, package database and iteration order", "why_tests_cant": "The input domain is infinite; tests sample a few literals.", "anchors": ["cmd/plan.go:planInstall", "cmd/tarballOps.go:unpackTarballs", "cmd/descriptionOps.go:unpackDescriptions", "pacman/utils.go:GetPriorInstalledPackages", "desc/desc.go:ParseDesc"]}
{"id": "C163", "title": "Certificates are verified", "statement": "Unless NoSecure is in force (option --no-secure, or NoSecure in the configuration), every index and every package file that pkgr takes from a repository with an https URL comes over connections whose certificates verify; a certificate that does not verify ends the opening of the repository, and leaves no file of the package, at whatever moment the run ends.", "quantifier": "all networks (servers, certificates, redirects), all repositories, plans, interleavings of the downloads and moments of ending, all sources of the setting", "why_tests_cant": "The input domain is infinite; tests sample a few literals.", "anchors": ["cran/repodb.go:FetchPackages", "cran/download-package.go:DownloadPackage", "cmd/root.go:init", "configlib/structs.go:PkgrConfig"]}
{"id": "C164", "title": "NoSecure changes nothing but the certificates", "statement": "With NoSecure no certificate matters; and apart from that it changes nothing: where all certificates verify, a run with NoSecure asks the same servers, by the same way, and gets the same answers as a run without.", "quantifier": "all networks, with and without a proxy in the environment, all requests", "why_tests_cant": "The input domain is infinite; tests sample a few literals.", "anchors": ["cran/repodb.go:FetchPackages", "cran/download-package.go:DownloadPackage"]}
{"id": "C165", "title": "A run that verifies uses nothing unverified", "statement": "A run in which NoSecure is not in force uses only package files and indices that were delivered over verified connections, whatever runs have filled the caches before.", "quantifier": "all histories of runs, with and without NoSecure, each ended at any moment, in networks that change from run to run", "why_tests_cant": "The Go runtime picks among unboundedly many interleavings; a test run exercises one.", "anchors": ["cran/download-package.go:DownloadPackage", "cran/download-package.go:DownloadPackages", "cran/repodb.go:FetchPackages"]}
{"id": "C166", "title": "A tarball is installed from its own content", "statement": "Whenever pkgr installs a package given as a tarball, in the first run or a later one, R gets a directory with exactly the files of the tarball, with their contents.", "quantifier": "all tarballs, caches, earlier runs and R within its contract", "why_tests_cant": "The input domain is infinite; tests sample a few literals.", "anchors": ["cmd/tarballOps.go:untar", "cmd/install.go:installAdditionalPackages", "internal/archive/extract.go:Extract"]}
{"id": "C167", "title": "What add and remove have edited is read back", "statement": "After 'pkgr add' the configuration file is read as listing the packages listed before, in the same order, and the given ones; after 'pkgr remove' as listing all the others, in the same order; and everything else in the configuration is read as before.", "quantifier": "all configuration files in block style, with comments and blank lines anywhere, all lists of packages, every reader that reads such files as YAML says", "why_tests_cant": "The input domain is infinite; tests sample a few literals.", "anchors": ["configlib/add_package.go:AddPackages", "configlib/add_package.go:insertPackages", "configlib/config.go:remove", "cmd/add.go:rAdd", "cmd/remove.go:rRemove"]}
{"id": "C168", "title": "A change of the configuration changes no more than it says", "statement": "The order of the listed packages, and whether one is listed twice, does not matter. Listing more packages, or a further repository behind the others, only adds to the plan: every package planned before is still planned, from the same repository, in the same type and version; what can be planned can still be planned with fewer packages listed, if any is left. A setting of one package does not change where another comes from. What is planned does not depend on what is installed.", "quantifier": "all configurations, repositories, libraries and orders in which tables are gone through", "why_tests_cant": "Go map iteration order is random and plan inputs are unbounded; a test run sees one order of one input.", "anchors": ["cmd/plan.go:planInstall", "configlib/config.go:SetPlanCustomizations", "cran/pkg_nexus.go:GetPackage", "gpsr/solution.go:ResolveInstallationReqs"]}
{"id": "C169", "title": "What is ignored, bundled or described counts as it says", "statement": "The more is ignored, the less is planned, and what is still planned comes from where it came from; ignoring what is not in the plan leaves the plan as it is. A tarball or DESCRIPTION file counts as if the packages it asks for (its imports and what it links to; for a DESCRIPTION file, what it suggests as well) had been listed, and more of them only add to the plan.", "quantifier": "all configurations, repositories, tarballs, DESCRIPTION files and orders in which tables are gone through", "why_tests_cant": "Go map iteration order is random and plan inputs are unbounded; a test run sees one order of one input.", "anchors": ["cmd/plan.go:planInstall", "desc/structs.go:GetCombinedDependencies", "gpsr/solution.go:ResolveInstallationReqs"]}
{"id": "C170", "title": "The order in which the configuration says things", "statement": "The order of the listed packages, of the ignored ones, of the customizations, of the tarballs and of the DESCRIPTION files does not matter: planning ends in the same way, with the same plan. The order of the repositories matters only for packages that two of them offer.", "quantifier": "all configurations and their reorderings, all repositories, libraries and orders in which tables are gone through", "why_tests_cant": "Go map iteration order is random and plan inputs are unbounded; a test run sees one order of one input.", "anchors": ["cmd/plan.go:planInstall", "configlib/config.go:SetPlanCustomizations", "cran/pkg_nexus.go:GetPackage"]}
{"id": "C171", "title": "The package cache saves downloads and changes nothing else", "statement": "Whatever the past of the package cache, the downloads of a run hand the same package files to the installation as they would with an empty cache: a package that is in the cache is the one that would be downloaded now. So a run needs no server for what is cached, and never gets another package because of the cache.", "quantifier": "all pasts of the cache (any number of runs with any packages, servers, outages, interleavings and removals), all packages and all schedules of the present run", "why_tests_cant": "The cache outlives runs; its state depends on an unbounded history of runs, configurations and systems, of which a test sees one.", "anchors": ["cran/download-package.go:DownloadPackage", "cran/download-package.go:DownloadPackages", "cran/utils.go:RepoURLHash"]}
{"id": "C172", "title": "pkgr install succeeds when nothing goes wrong", "statement": "When the cache is in order, the repositories deliver, R succeeds on every package whose dependencies are completely installed, no I/O operation fails, nothing stands in the way of what is to be made, the plan has at most 2500 packages plus the number of workers and nobody interrupts the run, then 'pkgr install' reports success: every wanted package is in the library, in a version that is not older than the published one, and so is what was given as a tarball.", "quantifier": "all configurations, repositories, libraries, R processes within this contract, and all schedules of downloads, workers, requester, updater and R processes", "why_tests_cant": "The Go runtime picks among unboundedly many interleavings; a test run exercises one.", "anchors": ["cmd/install.go:rInstall", "rcmd/install.go:InstallPackagePlan", "cran/download-package.go:DownloadPackages", "cmd/install.go:installAdditionalPackages"]}
{"id": "C173", "title": "Installing again succeeds, after a failure and after a success", "statement": "When 'pkgr install' has failed, for whatever reason, with rollback enabled, and the cause is gone, the same command succeeds: given again from the same configuration, with repositories that publish the same, and with nothing going wrong this time, it reports success, and every wanted package is in the library in a version that is not older than the published one, and so is what was given as a tarball. The failed run leaves nothing behind that stands in the way. After a run that succeeded the same command succeeds again, too, and touches nothing in the library but what is given as a tarball.", "quantifier": "all configurations, repositories, libraries, failures of the first run, ages of the database cache, and all schedules of both runs", "why_tests_cant": "The Go runtime picks among unboundedly many interleavings; a test run exercises one.", "anchors": ["cmd/install.go:rInstall", "rollback/operations.go:RollbackPackageEnvironment", "rcmd/install.go:InstallPackagePlan", "cmd/plan.go:planInstall"]}
{"id": "C174", "title": "Editing pkgr.yml never takes away what it still asks for", "statement": "When pkgr.yml is edited so that it says at least what it said before - more packages, more tarballs or DESCRIPTION files, the same settings in any order, further repositories after those that were there, or the same ones in another order if no two publish the same package - then everything that had to be installed before still has to be, from the same repository, in the same type and version; the plan of the new file contains the plan of the old one; and after a successful installation with the new file the library is also as the old file says. The same holds through histories: what a successful run with the old file brought is there after any runs with the new one, whichever of them fail. Two files that say the same in different orders lead to the same packages from the same places.", "quantifier": "all pairs of configurations, repositories, libraries, ages of the database cache, and schedules", "why_tests_cant": "The Go runtime picks among unboundedly many interleavings; a test run exercises one.", "anchors": ["cmd/plan.go:planInstall", "gpsr/solution.go:ResolveInstallationReqs", "cran/pkg_nexus.go:GetPackages", "configlib/config.go:SetPlanCustomizations"]}
{"id": "C175", "title": "Any number of runs", "statement": "However often 'pkgr install' is run with the same configuration, while the repositories publish the same, and whatever the runs that come to their end report: what one successful run has brought stays, the failures after it take nothing away; what the configuration does not ask for is at the end as it was at the start, and so is every wanted package that was up to date at the start; and the next run succeeds if nothing goes wrong in it.", "quantifier": "all configurations, repositories, libraries, and all histories of runs (each with any schedule, any failure of R, of the downloads or of a tarball, and any age of the database cache)", "why_tests_cant": "The Go runtime picks among unboundedly many interleavings; a test run exercises one.", "anchors": ["cmd/install.go:rInstall", "rollback/operations.go:RollbackPackageEnvironment", "rcmd/install.go:InstallPackagePlan", "cmd/plan.go:planInstall"]}
