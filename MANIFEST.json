{
 "claims": [
  {
   "property": "C01",
   "status": "proved",
   "theorems": [
    "Pkgr.C01_compare_range",
    "Pkgr.C01_compare_antisymm",
    "Pkgr.C01_compare_eq_iff",
    "Pkgr.C01_compare_trans",
    "Pkgr.C01_compare_trans_strict",
    "Pkgr.C01_isLowerVersion_not_order",
    "Pkgr.C01_isLowerVersion_says"
   ],
   "note": "Full statement proved."
  },
  {
   "property": "C02",
   "status": "proved",
   "theorems": [
    "Pkgr.C02_text_compare",
    "Pkgr.C02_any_size",
    "Pkgr.C02_single_component_panics",
    "Pkgr.C02_number_texts",
    "Pkgr.C02_any_text"
   ],
   "note": "Full statement proved."
  },
  {
   "property": "C03",
   "status": "partial",
   "theorems": [
    "Pkgr.C03_long_versions_partial",
    "Pkgr.C03_violated"
   ],
   "note": "C03_long_versions_partial: C03 (what the code does with five or more components): only the first three numbers count. | C03_violated: C03 is false: 1.2.3.4.5 is reported older than 1.2.3.1, and equal to 1.2.3.4.6."
  },
  {
   "property": "C04",
   "status": "proved",
   "theorems": [
    "Pkgr.C04_parse_written",
    "Pkgr.C04_roundtrip",
    "Pkgr.C04_unconstrained_does_not_roundtrip"
   ],
   "note": "Full statement proved."
  },
  {
   "property": "C05",
   "status": "proved",
   "theorems": [
    "Pkgr.C05_bare_name",
    "Pkgr.C05_panic_iff",
    "Pkgr.C05_never_dropped",
    "Pkgr.C05_description",
    "Pkgr.C05_description_panics_iff"
   ],
   "note": "Full statement proved."
  },
  {
   "property": "C06",
   "status": "partial",
   "theorems": [
    "Pkgr.C06_no_requirement",
    "Pkgr.C06_requirement",
    "Pkgr.C06_total",
    "Pkgr.C06_bare_R_violated"
   ],
   "note": "C06_bare_R_violated: C06 is false for a package that says `Depends: R` without a version: it is filtered out under every version of R."
  },
  {
   "property": "C07",
   "status": "proved",
   "theorems": [
    "Pkgr.C07_stanzas_exist",
    "Pkgr.C07_last_acceptable_wins",
    "Pkgr.C07_entries_keyed",
    "Pkgr.C07_loads_iff"
   ],
   "note": "Full statement proved."
  },
  {
   "property": "C08",
   "status": "partial",
   "theorems": [
    "Pkgr.C08_violated",
    "Pkgr.C08_both_types_partial",
    "Pkgr.C08_source_loaded"
   ],
   "note": "C08_violated: C08 is false: with a single source type (every repository on Linux that is not an MPN one) a failed fetch is not an error; the repository is treated as empty \u2014 for every database without binaries. | C08_both_types_partial: C08, the part that holds: with both source types, if every index fails the error is reported, whichever fails first."
  },
  {
   "property": "C09",
   "status": "partial",
   "theorems": [
    "Pkgr.C09_violated_source_types",
    "Pkgr.C09_violated_concatenation",
    "Pkgr.C09_same_name_partial",
    "Pkgr.C09_stale_binaries"
   ],
   "note": "C09_violated_source_types: C09 is false for source types: whatever the digest, a database with binaries and one without use the same cache file (the sum of source types is printed through a method that maps it to \"source\"). | C09_violated_concatenation: C09 is false for names and URLs: name and URL are concatenated without separator. | C09_same_name_partial: C09, the part that holds: for one repository name and a digest that does not collide on the two texts at hand, different URLs or different R versions give different cache files."
  },
  {
   "property": "C10",
   "status": "proved",
   "theorems": [
    "Pkgr.C10_freshness"
   ],
   "note": "Full statement proved."
  },
  {
   "property": "C11",
   "status": "proved",
   "theorems": [
    "Pkgr.C11_arrival_order_irrelevant"
   ],
   "note": "Full statement proved."
  },
  {
   "property": "C12",
   "status": "proved",
   "theorems": [
    "Pkgr.C12_resolution",
    "Pkgr.C12_first_repo_wins",
    "Pkgr.C12_unresolved_iff"
   ],
   "note": "Full statement proved."
  },
  {
   "property": "C13",
   "status": "proved",
   "theorems": [
    "Pkgr.C13_pin_succeeds_iff",
    "Pkgr.C13_pin_honoured",
    "Pkgr.C13_pin_local"
   ],
   "note": "Full statement proved."
  },
  {
   "property": "C14",
   "status": "proved",
   "theorems": [
    "Pkgr.C14_type_words",
    "Pkgr.C14_pin_honoured"
   ],
   "note": "Full statement proved."
  },
  {
   "property": "C15",
   "status": "partial",
   "theorems": [
    "Pkgr.C15_default_type_partial",
    "Pkgr.C15_violated"
   ],
   "note": "C15_default_type_partial: C15, the part that holds: without any package setting, a repository's default type is the one used. | C15_violated: C15 is false once the package is pinned to that very repository: the pin switches the repository's default type off, so package `b`, offered by R2 in R2's default type, resolves without a pin and becomes unavailable when pinned to R2."
  },
  {
   "property": "C16",
   "status": "proved",
   "theorems": [
    "Pkgr.C16_ignored_unresolvable",
    "Pkgr.C16_others_unchanged",
    "Pkgr.C16_never_planned"
   ],
   "note": "Full statement proved."
  },
  {
   "property": "C17",
   "status": "proved",
   "theorems": [
    "Pkgr.C17_missing_exact",
    "Pkgr.C17_all_names"
   ],
   "note": "Full statement proved."
  },
  {
   "property": "C18",
   "status": "proved",
   "theorems": [
    "Pkgr.C18_fetched_databases_keyed",
    "Pkgr.C18_collection_terminates",
    "Pkgr.C18_planning_terminates"
   ],
   "note": "Full statement proved."
  },
  {
   "property": "C19",
   "status": "proved",
   "theorems": [
    "Pkgr.C19_graph_least_closed_set",
    "Pkgr.C19_plan_packages"
   ],
   "note": "Full statement proved."
  },
  {
   "property": "C20",
   "status": "partial",
   "theorems": [
    "Pkgr.C20_exclusion_partial",
    "Pkgr.C20_violated"
   ],
   "note": "C20_exclusion_partial: C20, partial: a package that ships with R (base, or recommended when those are not wanted) is only planned if it was requested or is suggested by a planned package whose settings ask for suggested packages. Missing: the suggested ones should be excluded too, see `C20_violated`. | C20_violated: C20 is violated: with NoRecommended and global Suggests, a recommended package and even a base package that is merely suggested is planned."
  },
  {
   "property": "C21",
   "status": "proved",
   "theorems": [
    "Pkgr.C21_layering_sound"
   ],
   "note": "Full statement proved."
  },
  {
   "property": "C22",
   "status": "proved",
   "theorems": [
    "Pkgr.C22_circular_iff",
    "Pkgr.C22_resolution_circular_iff"
   ],
   "note": "Full statement proved."
  },
  {
   "property": "C23",
   "status": "proved",
   "theorems": [
    "Pkgr.C23_planning_deterministic",
    "Pkgr.C23_layers_deterministic",
    "Pkgr.C23_plan_deterministic"
   ],
   "note": "Full statement proved."
  },
  {
   "property": "C24",
   "status": "proved",
   "theorems": [
    "Pkgr.C24_dependency_lists"
   ],
   "note": "Full statement proved."
  },
  {
   "property": "C25",
   "status": "proved",
   "theorems": [
    "Pkgr.C25_starting_packages"
   ],
   "note": "Full statement proved."
  },
  {
   "property": "C26",
   "status": "proved",
   "theorems": [
    "Pkgr.C26_downloads"
   ],
   "note": "Full statement proved."
  },
  {
   "property": "C27",
   "status": "proved",
   "theorems": [
    "Pkgr.C27_inverse_exact",
    "Pkgr.C27_order_is_lexicographic"
   ],
   "note": "Full statement proved."
  },
  {
   "property": "C28",
   "status": "partial",
   "theorems": [
    "Pkgr.C28_suggests_partial",
    "Pkgr.C28_violated_duplicate_entries"
   ],
   "note": "C28_suggests_partial: C28, partial: when no package has two customization entries, the packages of a plan are exactly the requested packages, everything they need, and the suggestions of those planned packages for which the configuration asks (own setting, else the global one for listed packages). Missing: configurations with two entries for one package, see `C28_violated_duplicate_entries`. | C28_violated_duplicate_entries: C28 is violated when a package has two customization entries: a second entry that says nothing about Suggests (for example one that only sets an environment variable) switches off the Suggests that the first one asked for, so `s` is not planned; and if one of them sets the type, planning ends with a fatal error."
  },
  {
   "property": "C29",
   "status": "partial",
   "theorems": [
    "Pkgr.C29_requested_partial",
    "Pkgr.C29_violated",
    "Pkgr.C29_files_partial"
   ],
   "note": "C29_requested_partial: C29, partial: what is requested, exactly: the configured packages, the Imports and LinkingTo of every tarball, and the Imports, LinkingTo and Suggests of every DESCRIPTION file, except base packages. Missing: their Depends, see `C29_violated`. | C29_violated: C29 is violated: a tarball or DESCRIPTION that needs `c` through Depends does not get it requested. | C29_files_partial: C29 (partial: not for what is needed through Depends), from the files on: when the configured tarballs and DESCRIPTION files have been read, each package that the DESCRIPTION in an unpacked tarball names under Imports or LinkingTo, or a listed DESCRIPTION file under Imports, LinkingTo or Suggests, is requested unless it comes with R; and nothing else is but what the configuration lists."
  },
  {
   "property": "C30",
   "status": "partial",
   "theorems": [
    "Pkgr.C30_nonempty_partial",
    "Pkgr.C30_violated"
   ],
   "note": "C30_nonempty_partial: C30, as far as it holds: for packages that can be obtained, the crash on an empty layer list occurs for the empty list of packages only. Missing: the empty list (`C30_violated`). | C30_violated: C30 is violated: resolving an empty package list never gives a plan; with nothing installed it panics on the empty layer list, for all settings and databases."
  },
  {
   "property": "C31",
   "status": "proved",
   "theorems": [
    "Pkgr.C31_outdated_exact",
    "Pkgr.C31_never_a_downgrade"
   ],
   "note": "Full statement proved."
  },
  {
   "property": "C32",
   "status": "partial",
   "theorems": [
    "Pkgr.C32_exact_partial",
    "Pkgr.C32_count_partial",
    "Pkgr.C32_violated"
   ],
   "note": "C32_exact_partial: C32, the number reported, exactly: the number of packages and tarballs that must be installed, each counted once; plus those planned packages that are given as a tarball, too; plus, when updating, the outdated packages that are not planned or that are given as a tarball. The number is right iff there is no package of the two latter kinds. Missing: that there is none, see `C32_violated`. | C32_count_partial: C32, partial: when no tarball is also planned from a repository and every outdated package is planned and installed (and named once), the number reported is the number of planned packages and tarballs that must be installed. Missing: outdated packages outside the plan, see `C32_violated`. | C32_violated: C32 is violated: with an outdated installed package that is not part of the plan, the number reported exceeds the number of packages to install (here everything planned is installed and current)."
  },
  {
   "property": "C33",
   "status": "proved",
   "theorems": [
    "Pkgr.C33_plans_are_well_formed",
    "Pkgr.C33_dependencies_first",
    "Pkgr.C33_needed_first"
   ],
   "note": "Full statement proved."
  },
  {
   "property": "C34",
   "status": "proved",
   "theorems": [
    "Pkgr.C34_started_once",
    "Pkgr.C34_only_planned"
   ],
   "note": "Full statement proved."
  },
  {
   "property": "C35",
   "status": "proved",
   "theorems": [
    "Pkgr.C35_all_installed"
   ],
   "note": "Full statement proved."
  },
  {
   "property": "C36",
   "status": "proved",
   "theorems": [
    "Pkgr.C36_progress",
    "Pkgr.C36_bounded",
    "Pkgr.C36_completes",
    "Pkgr.C36_capacity_needed"
   ],
   "note": "Full statement proved."
  },
  {
   "property": "C37",
   "status": "proved",
   "theorems": [
    "Pkgr.C37_dependents_not_started",
    "Pkgr.C37_error_iff"
   ],
   "note": "Full statement proved."
  },
  {
   "property": "C38",
   "status": "partial",
   "theorems": [
    "Pkgr.C38_violated_lost_request",
    "Pkgr.C38_violated",
    "Pkgr.C38_violated_copy",
    "Pkgr.C38_returns_partial",
    "Pkgr.C38_returns_iff_partial"
   ],
   "note": "C38_violated_lost_request: C38 is violated in general: once a failure has been recorded while some package has still to be looked at by the requester (a starting package not yet handed over, or a name just received), the run can never return: the name is dropped without telling the wait group. | C38_violated: C38 is violated: an example with a well-formed plan and two workers: the first package fails before the second, independent one has been handed over; the run never returns. | C38_violated_copy: C38 is violated even without a failed installation: when the copy of a built binary into the cache fails, the run can never return. | C38_returns_partial: C38, the part that holds: as long as no name has been dropped and no copy of a binary failed (`leaked = 0`), the run can go on after a failure until it returns; by `C36_bounded` it does so after finitely many steps. Missing: see `C38_violated`. | C38_returns_iff_partial: C38, exactly: an execution of a plan (with a worker, and within the capacity of the queues) that can go no further has returned iff every package that was handed over to be installed was started, and no copy of a built binary failed; by `C36_bounded` every execution comes to such a point. Missing: that these always hold, see `C38_violated` and `C38_violated_copy`."
  },
  {
   "property": "C39",
   "status": "proved",
   "theorems": [
    "Pkgr.C39_quiet_after_return"
   ],
   "note": "Full statement proved."
  },
  {
   "property": "C40",
   "status": "proved",
   "theorems": [
    "Pkgr.C40_concurrency",
    "Pkgr.C40_threads"
   ],
   "note": "Full statement proved."
  },
  {
   "property": "C41",
   "status": "proved",
   "theorems": [
    "Pkgr.C41_worker_count"
   ],
   "note": "Full statement proved."
  },
  {
   "property": "C42",
   "status": "partial",
   "theorems": [
    "Pkgr.C42_violated",
    "Pkgr.C42_explicit_partial"
   ],
   "note": "C42_violated: C42 does not hold: when neither the flag nor the configuration sets a thread count, the number of workers is the number of CPUs, however large. | C42_explicit_partial: C42, what does hold: the cap applies when the thread count is explicitly set to a value below one, and explicit positive settings are obeyed, the flag winning over the configuration."
  },
  {
   "property": "C43",
   "status": "proved",
   "theorems": [
    "Pkgr.C43_present_untouched",
    "Pkgr.C43_failed_build",
    "Pkgr.C43_only_own_package",
    "Pkgr.C43_target_last"
   ],
   "note": "Full statement proved."
  },
  {
   "property": "C44",
   "status": "partial",
   "theorems": [
    "Pkgr.C44_names_agree_partial",
    "Pkgr.C44_violated_name",
    "Pkgr.C44_stored_where_searched_partial",
    "Pkgr.C44_downloaded_binary",
    "Pkgr.C44_cached_binary_used",
    "Pkgr.C44_source_built"
   ],
   "note": "C44_names_agree_partial: C44: the name R gives the built binary (as pkgr derives it from the tarball's name) is the name under which the cache is searched. | C44_violated_name: C44 does not hold for every legal R package name. | C44_stored_where_searched_partial: C44: the place where the built binary of a downloaded source package is stored is the place where the next run looks for it."
  },
  {
   "property": "C45",
   "status": "proved",
   "theorems": [
    "Pkgr.C45_distinct_paths",
    "Pkgr.C45_underscore_needed"
   ],
   "note": "Full statement proved."
  },
  {
   "property": "C46",
   "status": "partial",
   "theorems": [
    "Pkgr.C46_violated_crash",
    "Pkgr.C46_violated_cut",
    "Pkgr.C46_complete_partial"
   ],
   "note": "C46_violated_crash: C46 does not hold: for every package file with at least one character there is a moment during its download at which a crash leaves a truncated file that the next run uses as the package, without contacting the server. | C46_violated_cut: C46 does not hold without a crash either: a connection cut in the middle reports an error now, but leaves a file that the next run uses. | C46_complete_partial: C46, what does hold: a download that reports success as new left exactly the full content at the destination; an existing file is never modified; nothing else is ever modified, not even in a crash."
  },
  {
   "property": "C47",
   "status": "partial",
   "theorems": [
    "Pkgr.C47_at_most_ten",
    "Pkgr.C47_schedule_independent",
    "Pkgr.C47_deterministic",
    "Pkgr.C47_progress",
    "Pkgr.C47_bounded",
    "Pkgr.C47_path_iff_partial",
    "Pkgr.C47_violated_bad_status",
    "Pkgr.C47_violated_same_name",
    "Pkgr.C47_violated_fatal",
    "Pkgr.C47_fine_bounded",
    "Pkgr.C47_fine_at_most_ten",
    "Pkgr.C47_fine_schedule_independent",
    "Pkgr.C47_fine_progress"
   ],
   "note": "C47_path_iff_partial: C47, failures: a package gets an entry with a path exactly when its file is in the cache or was completely downloaded. | C47_violated_bad_status: C47 does not hold as far as failures are concerned: a server error (any status but 200) is stored in the table as a success without a path, and installing from that entry makes R install the current working directory. | C47_violated_same_name: C47 does not hold when two repositories share a name but not a URL: only one of the directories is created, so the packages of the other one are never stored even though the server delivers them. | C47_violated_fatal: A missing local package file ends the program at once: it never returns a table."
  },
  {
   "property": "C48",
   "status": "partial",
   "theorems": [
    "Pkgr.C48_other_lines_partial",
    "Pkgr.C48_idempotent",
    "Pkgr.C48_violated_dropped",
    "Pkgr.C48_violated_url",
    "Pkgr.C48_violated_accumulates",
    "Pkgr.C48_installed",
    "Pkgr.C48_repository",
    "Pkgr.C48_original_kept_partial"
   ],
   "note": "C48_other_lines_partial: C48: the three pkgr lines are at the end and say what they should; nothing else in the result mentions them; and all lines that are neither about pkgr nor about the repository are kept, in order. | C48_violated_dropped: C48 does not hold in full: a line that merely mentions the marker text is deleted, whatever field it belongs to. | C48_violated_url: C48 does not hold in full: an original repository given as a URL is cut at its second colon, so the original value is lost. | C48_violated_accumulates: C48 does not hold in full: stamping with one repository and then another accumulates OriginalRepository lines. | C48_original_kept_partial: C48: the repository a DESCRIPTION named before is kept as the original one, when its name contains no colon."
  },
  {
   "property": "C49",
   "status": "partial",
   "theorems": [
    "Pkgr.C49_made_is_removed",
    "Pkgr.C49_restored_partial",
    "Pkgr.C49_violated_stray",
    "Pkgr.C49_violated_stale_backup",
    "Pkgr.C49_violated_dead_download"
   ],
   "note": "C49_restored_partial: C49, for libraries in order: if an installation fails with rollback enabled and no I/O error occurs, then after the run every file and directory of the library (R's lock directories aside) is what it was before. | C49_violated_stray: C49 does not hold for a library in disorder: a directory without (readable) DESCRIPTION that bears the name of a planned package is deleted by the rollback, although it was there before the run. | C49_violated_stale_backup: C49 does not hold when a backup is left over from a killed run: the rollback then installs the left-over backup instead of the version that was there before the run. | C49_violated_dead_download: C49 does not hold when the run dies while downloading (a missing local package file, for example): every package set aside has left its place."
  },
  {
   "property": "C50",
   "status": "proved",
   "theorems": [
    "Pkgr.C50_outside_untouched",
    "Pkgr.C50_queue_of_installer"
   ],
   "note": "Full statement proved."
  },
  {
   "property": "C51",
   "status": "partial",
   "theorems": [
    "Pkgr.C51_no_loss_partial",
    "Pkgr.C51_until_rollback_partial",
    "Pkgr.C51_violated_rename_fault"
   ],
   "note": "C51_no_loss_partial: C51, when no rename that sets a package aside fails: at every moment of the run until the backups are deleted, the rollback included, every package of the plan that was in the library is either untouched at its place (and there is no backup) or complete in its backup, whatever else fails and wherever the process dies. | C51_until_rollback_partial: C51 with arbitrary I/O errors, until the rollback begins: every package of the plan that was in the library and is not overwritten by a tarball is untouched at its place or complete in its backup. | C51_violated_rename_fault: C51 does not hold when setting a package aside fails (the error is only logged): the installer then leaves the old version alone, but if anything else fails the rollback deletes it, and no backup exists."
  },
  {
   "property": "C52",
   "status": "partial",
   "theorems": [
    "Pkgr.C52_violated",
    "Pkgr.C52_violated_removal",
    "Pkgr.C52_before_deletion_partial"
   ],
   "note": "C52_violated: C52 does not hold: when renaming a backup to its place fails, the rollback stops there, and then the backups are deleted all the same. The first package set aside is lost altogether, and of the others no backup is left. | C52_violated_removal: C52 does not hold either when a package that the failed run has brought in cannot be removed: the rollback stops there, no package that was set aside is restored - each is left as the failed run left it, for example missing -, and all backups are deleted. | C52_before_deletion_partial: C52, as far as it holds: until the very end of the run, where the backups are deleted, a package that is not back at its place (because a removal or a rename of the rollback failed, or because the process died before it was restored) is complete in its backup. Missing: the deletion itself, see `C52_violated`."
  },
  {
   "property": "C53",
   "status": "partial",
   "theorems": [
    "Pkgr.C53_noUpdate_partial",
    "Pkgr.C53_violated"
   ],
   "note": "C53_noUpdate_partial: C53, as far as it holds: with `NoUpdate`, a failed run leaves the library as it was even if packages given as tarballs are outdated. Missing: without `NoUpdate`, see `C53_violated`. | C53_violated: C53 does not hold: a package that is outdated and given as a tarball is set aside once, but the rollback restores it twice: the second time it deletes the restored version and finds no backup."
  },
  {
   "property": "C54",
   "status": "partial",
   "theorems": [
    "Pkgr.C54_tarball_partial",
    "Pkgr.C54_reported_partial",
    "Pkgr.C54_violated"
   ],
   "note": "C54_tarball_partial: C54 for tarballs: when R fails on a tarball that is there, the run does not report success. | C54_reported_partial: C54, what holds: a run that does not report failure had no failure: the downloads that it made succeeded, the queue that it started afterwards reported no error, and then every tarball was installed without error, one after the other. | C54_violated: C54 does not hold: when the installation queue reports an error (and nothing kills the process), the exit status is 0."
  },
  {
   "property": "C55",
   "status": "proved",
   "theorems": [
    "Pkgr.C55_strict",
    "Pkgr.C55_asked_iff_missing",
    "Pkgr.C55_created",
    "Pkgr.C55_goes_on"
   ],
   "note": "Full statement proved."
  },
  {
   "property": "C56",
   "status": "proved",
   "theorems": [
    "Pkgr.C56_noUpdate"
   ],
   "note": "Full statement proved."
  },
  {
   "property": "C57",
   "status": "partial",
   "theorems": [
    "Pkgr.C57_nothing_outdated",
    "Pkgr.C57_stable_tarballs_partial",
    "Pkgr.C57_stable_partial",
    "Pkgr.C57_second_run",
    "Pkgr.C57_violated_tarball"
   ],
   "note": "C57_stable_tarballs_partial: C57: when every package that the plan takes from the repositories is installed and none of the plan's packages is outdated, a run changes nothing in the library but the packages given as tarballs (and their backups, and R's locks), at any moment and whatever happens. | C57_stable_partial: C57: when every package of the plan is installed, none of them is outdated and no tarballs are given, a run changes nothing in the library (R's locks aside), at any moment and whatever happens. | C57_violated_tarball: C57 does not hold with tarballs: the package of a tarball is set aside and installed again by every run, even if it is installed already."
  },
  {
   "property": "C58",
   "status": "partial",
   "theorems": [
    "Pkgr.C58_inserts",
    "Pkgr.C58_new_section",
    "Pkgr.C58_violated_twice",
    "Pkgr.C58_violated_crlf",
    "Pkgr.C58_violated_long_line"
   ],
   "note": "C58_violated_twice: C58 does not hold for repeated arguments: a package given twice is added twice. | C58_violated_crlf: C58 does not hold for files with carriage returns: all other lines are changed too. | C58_violated_long_line: C58 does not hold for a file with a line of 64 KiB or more: that line and everything after it are lost."
  },
  {
   "property": "C59",
   "status": "partial",
   "theorems": [
    "Pkgr.C59_unchanged_partial",
    "Pkgr.C59_violated_quoted"
   ],
   "note": "C59_unchanged_partial: C59: adding only packages that are listed leaves a file of ordinary lines with a `Packages:` line and an entry below it as it is. | C59_violated_quoted: C59 does not hold when no line begins with `Packages:`, for example when the key is quoted: a second, empty, section is appended."
  },
  {
   "property": "C60",
   "status": "partial",
   "theorems": [
    "Pkgr.C60_exact_lines",
    "Pkgr.C60_only_that_package_partial",
    "Pkgr.C60_violated_prefix",
    "Pkgr.C60_violated_quoted",
    "Pkgr.C60_several"
   ],
   "note": "C60_only_that_package_partial: C60, when every line that begins as an entry for `name` is an entry for `name`: exactly these entries are removed. | C60_violated_prefix: C60 does not hold: entries that only begin with the name are removed too, whatever follows (the packages `data.table` for `data`, a repository or customization of that name whose nested lines stay behind). | C60_violated_quoted: C60 does not hold for entries written otherwise: a quoted entry is not removed."
  },
  {
   "property": "C61",
   "status": "partial",
   "theorems": [
    "Pkgr.C61_undo_partial",
    "Pkgr.C61_violated_new_section",
    "Pkgr.C61_idempotent"
   ],
   "note": "C61_undo_partial: C61: removing a package that was just added restores a file in which no line began as an entry for it. | C61_violated_new_section: C61 does not hold for a file without `Packages:` line: the appended section stays."
  },
  {
   "property": "C62",
   "status": "partial",
   "theorems": [
    "Pkgr.C62_violated",
    "Pkgr.C62_later_entry_partial"
   ],
   "note": "C62_violated: C62 does not hold: if no list entry follows the `Packages:` line in the whole file (and that line has no dash), adding packages panics. | C62_later_entry_partial: C62, what holds: if some list entry follows anywhere below, in whatever section, an empty `Packages:` section gets the new entries (indented like that entry)."
  },
  {
   "property": "C63",
   "status": "partial",
   "theorems": [
    "Pkgr.C63_user_library",
    "Pkgr.C63_inherited_ignored",
    "Pkgr.C63_site_unset_partial",
    "Pkgr.C63_violated_r_libs",
    "Pkgr.C63_violated_equals"
   ],
   "note": "C63_site_unset_partial: C63. Without library paths and without settings in the configuration, R_LIBS_SITE is not set at all, whatever is inherited (under ordinary names). | C63_violated_r_libs: C63 fails: R's third library variable, `R_LIBS`, which R puts before the two others, is inherited. | C63_violated_equals: C63 fails: a library path with an equals sign in it is dropped, and R_LIBS_SITE is not set at all."
  },
  {
   "property": "C64",
   "status": "partial",
   "theorems": [
    "Pkgr.C64_package_env_wins_partial",
    "Pkgr.C64_violated",
    "Pkgr.C64_from_config_partial"
   ],
   "note": "C64_package_env_wins_partial: C64 (partial: values with a blank at an end, and R's two library variables, excepted). Every variable set in the package's customization has that value in the R process, whatever is inherited or set globally, and in whatever order the settings are visited. | C64_violated: C64 fails for `R_LIBS_USER`, for values with blanks at an end (they are cut off), and for inherited names with a blank at the end (they are cut off too, and then win). | C64_from_config_partial: C64 (partial, exceptions as in `C64_package_env_wins_partial`). From the configuration file to R: the last entry of a package under `Customizations` that has an `Env` gives the environment of R for this package, and no entry of another package has an influence on it."
  },
  {
   "property": "C65",
   "status": "proved",
   "theorems": [
    "Pkgr.C65_secrets_hidden"
   ],
   "note": "Full statement proved."
  },
  {
   "property": "C66",
   "status": "partial",
   "theorems": [
    "Pkgr.C66_passed_through_partial",
    "Pkgr.C66_violated",
    "Pkgr.C66_violated_letters"
   ],
   "note": "C66_passed_through_partial: C66 (partial: values with a blank at an end excepted; the other exceptions are part of the claim). The first inherited setting of a variable that is neither set by the configuration, nor PATH, nor one of R's two library variables, nor a secret, reaches R with the very same value. | C66_violated: C66 fails for a value with a blank at an end: it is cut off. | C66_violated_letters: C66 fails for a variable that is none of the secrets, if its letters have the same upper case: with a dotless i (U+0131) or a long s (U+017F)."
  },
  {
   "property": "C67",
   "status": "proved",
   "theorems": [
    "Pkgr.C67_get_append",
    "Pkgr.C67_append_text",
    "Pkgr.C67_update_others",
    "Pkgr.C67_get_update",
    "Pkgr.C67_remove_others",
    "Pkgr.C67_get_remove",
    "Pkgr.C67_get_nvp",
    "Pkgr.C67_get_value"
   ],
   "note": "Full statement proved."
  },
  {
   "property": "C68",
   "status": "partial",
   "theorems": [
    "Pkgr.C68_library_paths_partial",
    "Pkgr.C68_split_partial",
    "Pkgr.C68_violated"
   ],
   "note": "C68_library_paths_partial: C68 (partial: paths with an equals sign, and a blank at the very beginning or end, excepted). R sees exactly the configured library paths, in order, separated by colons, whatever is inherited or customized. | C68_split_partial: C68 (partial). Hence, when no path contains a colon, R splits the variable into exactly the configured paths. | C68_violated: C68 fails: with an equals sign in one of the paths, none of them reaches R; a path with a colon reaches it as two."
  },
  {
   "property": "C69",
   "status": "proved",
   "theorems": [
    "Pkgr.C69_confined",
    "Pkgr.C69_no_overwrite",
    "Pkgr.C69_refused"
   ],
   "note": "Full statement proved."
  },
  {
   "property": "C70",
   "status": "proved",
   "theorems": [
    "Pkgr.C70_exact"
   ],
   "note": "Full statement proved."
  },
  {
   "property": "C71",
   "status": "partial",
   "theorems": [
    "Pkgr.C71_violated",
    "Pkgr.C71_violated_interrupted",
    "Pkgr.C71_complete_partial",
    "Pkgr.C71_folder"
   ],
   "note": "C71_violated: C71 fails: when writing a file fails (or the run is killed) during the extraction, the next run of the same tarball finds the directory and uses it, with what is missing still missing. | C71_violated_interrupted: C71 fails in the same way for an interrupted extraction: already the state after the destination was made is taken for a finished extraction. | C71_complete_partial: C71 (partial). A run that does not find the directory either ends with an error or with a complete extraction, and the next run, if nothing else has changed, uses the same folder and changes nothing."
  },
  {
   "property": "C72",
   "status": "partial",
   "theorems": [
    "Pkgr.C72_exact_partial",
    "Pkgr.C72_flags",
    "Pkgr.C72_violated_crash",
    "Pkgr.C72_violated_tarballs"
   ],
   "note": "C72_exact_partial: C72 (partial). If the cache directory exists and the flags make sense, cleaning removes exactly the files of the selected kinds in the selected repositories, the repository folders with nothing else in them, and the unpacked tarballs of the configuration; everything else is as before. (Partial: unpacked tarballs are removed whatever was selected.) | C72_violated_crash: C72 fails if there is no cache directory yet: the program crashes. | C72_violated_tarballs: C72 fails: cleaning the sources of one repository also removes the unpacked tarballs."
  },
  {
   "property": "C73",
   "status": "proved",
   "theorems": [
    "Pkgr.C73_exact"
   ],
   "note": "Full statement proved."
  },
  {
   "property": "C74",
   "status": "partial",
   "theorems": [
    "Pkgr.C74_violated",
    "Pkgr.C74_same_partial"
   ],
   "note": "C74_violated: C74 fails: with no cache configured, tarballs are unpacked into the default cache directory, but the cleanup looks into the working directory, leaves the unpacked tarball, and removes a directory of that name in the project if there is one. | C74_same_partial: C74 (partial). With a configured cache directory the cleanup removes exactly the directory the tarball was unpacked to."
  },
  {
   "property": "C75",
   "status": "partial",
   "theorems": [
    "Pkgr.C75_count",
    "Pkgr.C75_exact_partial",
    "Pkgr.C75_violated_duplicates"
   ],
   "note": "C75_exact_partial: C75 (partial). If no package is listed twice: the number of failures is the number of packages that cannot be loaded, and the report has, whatever the order in which the sessions end, for every package the result of its own session and nothing else. | C75_violated_duplicates: C75 fails in the presence of duplicates: one package, listed twice, gives two failures."
  },
  {
   "property": "C76",
   "status": "proved",
   "theorems": [
    "Pkgr.C76_sessions"
   ],
   "note": "Full statement proved."
  },
  {
   "property": "C77",
   "status": "partial",
   "theorems": [
    "Pkgr.C77_finishes_partial",
    "Pkgr.C77_violated_zero",
    "Pkgr.C77_violated_negative"
   ],
   "note": "C77_finishes_partial: C77 (partial). With at least one thread, `load` always finishes: no schedule has more than `4n + 2` steps for `n` packages, no channel operation ever fails, and a state in which nothing more can happen is one in which the report is complete (or the program has ended itself, because R could not be run at all). | C77_violated_zero: C77 fails: with `threads` zero (which `install` understands as \"choose yourself\") and a package to load, no step is possible at all: the load check hangs. | C77_violated_negative: C77 fails: a negative number of threads crashes the program."
  },
  {
   "property": "C78",
   "status": "proved",
   "theorems": [
    "Pkgr.C78_first_entry"
   ],
   "note": "Full statement proved."
  },
  {
   "property": "C79",
   "status": "partial",
   "theorems": [
    "Pkgr.C79_default",
    "Pkgr.C79_same_file",
    "Pkgr.C79_windows_exe",
    "Pkgr.C79_rscript_sibling",
    "Pkgr.C79_violated_dot"
   ],
   "note": "C79_violated_dot: C79 fails: a configured path in the current directory, `./R`, becomes `R`, which the system looks up in PATH."
  },
  {
   "property": "C80",
   "status": "partial",
   "theorems": [
    "Pkgr.C80_version_partial",
    "Pkgr.C80_exact_partial",
    "Pkgr.C80_violated"
   ],
   "note": "C80_version_partial: C80 (partial: outputs with two lines that start with \"R version\", or a platform line without a platform, excepted). The version found is the one on the line that starts with \"R version\", whatever other lines are printed before and after it. | C80_exact_partial: C80 (partial: outputs with two lines that start with \"R version\" or with \"Platform:\", and malformed ones, excepted). Version and platform found are those on the lines that start with \"R version\" and with \"Platform:\", whatever other lines are printed before, between and after them. | C80_violated: C80 fails: with two such lines the last one counts; a development version (\"R Under development\") gives 0.0.0; and a platform line without a platform is a crash."
  },
  {
   "property": "C81",
   "status": "partial",
   "theorems": [
    "Pkgr.C81_violated",
    "Pkgr.C81_success_partial"
   ],
   "note": "C81_violated: C81 does not hold: when the package file is missing, no R process is run, the package is not installed, and the error is nil (so `InstallPackagePlan` counts the package as installed). | C81_success_partial: C81, what does hold: if R keeps its promise that status 0 means installed when it is given a package file of the package, if the downloaded file and a cached binary that is there are such files, then a result with nil error and exit code 0 means that the package's directory is in the library, on every path through the code."
  },
  {
   "property": "C82",
   "status": "partial",
   "theorems": [
    "Pkgr.C82_same_directory_partial",
    "Pkgr.C82_violated",
    "Pkgr.C82_delivered_partial"
   ],
   "note": "C82_same_directory_partial: C82: the package file is fetched from the directory whose PACKAGES index was read, for source packages, for repositories without suffix, and on Linux. | C82_violated: C82 does not hold for binary packages on other platforms when the repository has a suffix: the index is read without the suffix, the package is fetched with it. | C82_delivered_partial: C82, the downloads as a whole: a package that was newly downloaded is what the server delivered in the directory whose PACKAGES index was read for the package's type (the platform's default type being settled), under the conditions of `C82_same_directory_partial`."
  },
  {
   "property": "C83",
   "status": "partial",
   "theorems": [
    "Pkgr.C83_sources_partial",
    "Pkgr.C83_one_entry_partial",
    "Pkgr.C83_violated"
   ],
   "note": "C83_sources_partial: C83, exactly: the source and repository type come from the last entry of that name, the URL suffix from the first; a repository without entries has no settings. | C83_one_entry_partial: C83 (partial). For a repository customized once, all settings come from that entry, in every iteration order. | C83_violated: C83 fails: with two entries of one name the type is that of the second, the suffix that of the first."
  },
  {
   "property": "C84",
   "status": "partial",
   "theorems": [
    "Pkgr.C84_path_prefix_partial",
    "Pkgr.C84_violated"
   ],
   "note": "C84_path_prefix_partial: C84 (partial: PATHs that begin with the text of the directory excepted). If the configured R is in the directory `d`, and PATH is inherited and not customized, R processes see `d` followed by the inherited PATH. | C84_violated: C84 fails: when PATH begins with another directory whose name merely starts with the same text, R's directory is not added at all."
  },
  {
   "property": "C85",
   "status": "partial",
   "theorems": [
    "Pkgr.C85_order_partial",
    "Pkgr.C85_violated"
   ],
   "note": "C85_order_partial: C85 (partial: list items with one repository each). The repositories are searched in the order of the file. | C85_violated: C85 fails: two repositories in one list item are searched in either order, from run to run."
  },
  {
   "property": "C86",
   "status": "proved",
   "theorems": [
    "Pkgr.C86_one_repository",
    "Pkgr.C86_opens",
    "Pkgr.C86_databases"
   ],
   "note": "Full statement proved."
  },
  {
   "property": "C87",
   "status": "partial",
   "theorems": [
    "Pkgr.C87_same_answer_partial",
    "Pkgr.C87_true_cache",
    "Pkgr.C87_violated_interrupted"
   ],
   "note": "C87_same_answer_partial: C87 (partial: of the same repository settings, and when the first run got its cache file written to the end). Once a repository was opened from the network, every later run that takes the file for young gets the very same database, whatever the servers answer by then and whatever was opened in between, by runs that also take the file for young. | C87_violated_interrupted: C87 fails when the run ends while the cache file is written: as long as the file is young, every later run, whatever the servers answer, ends with an error."
  },
  {
   "property": "C88",
   "status": "partial",
   "theorems": [
    "Pkgr.C88_choice_partial",
    "Pkgr.C88_downloads_partial",
    "Pkgr.C88_rejected_iff",
    "Pkgr.C88_violated_two_entries",
    "Pkgr.C88_violated_nameless"
   ],
   "note": "C88_choice_partial: C88 (partial: one entry per package, a non-empty repository name). What a planned package is taken from is decided by the configuration alone: the first repository, in the order of the configuration, that is the one set for the package, if one is, and that offers it in the type in force; and no ignored package is obtained. | C88_downloads_partial: C88 (partial, as above). Every download of a plan is what the configuration chooses for that package. | C88_violated_two_entries: C88 fails: two entries of one package, one with the repository and one with the type, are rejected although both can be understood (what one entry does not say is taken from it as the empty word if the other one says it). | C88_violated_nameless: C88 fails: a package set to a repository whose name is empty is taken from another one."
  },
  {
   "property": "C89",
   "status": "partial",
   "theorems": [
    "Pkgr.C89_cache_afterwards",
    "Pkgr.C89_downloads_partial",
    "Pkgr.C89_packages_partial",
    "Pkgr.C89_fetched_from_partial",
    "Pkgr.C89_violated_suffix"
   ],
   "note": "C89_downloads_partial: C89 (partial: an unambiguous configuration, young cache files that say what is published, different cache files for different repositories, no package called R). Whatever order the repositories answer in, every planned download comes from the first configured repository that can supply the package, with the description that this repository's index gives. | C89_packages_partial: C89 (partial, as above). The packages of the plan are exactly what has to be installed according to the index files and the configuration, each once, and each is downloaded once. | C89_fetched_from_partial: C89 (partial, as above; and without a suffix for binary packages outside Linux). A download is fetched from the directory in which the index that lists it is. | C89_violated_suffix: C89 fails outside Linux for binary packages of a repository with a suffix: a planned download is fetched from a directory other than that of the index that lists it."
  },
  {
   "property": "C90",
   "status": "proved",
   "theorems": [
    "Pkgr.C90_sequential",
    "Pkgr.C90_scheduler",
    "Pkgr.C90_library",
    "Pkgr.C90_queue_behaves"
   ],
   "note": "Full statement proved."
  },
  {
   "property": "C91",
   "status": "partial",
   "theorems": [
    "Pkgr.C91_dependencies_present_partial",
    "Pkgr.C91_one_process_each",
    "Pkgr.C91_violated_missing_file"
   ],
   "note": "C91_dependencies_present_partial: C91: whenever an R process runs for a package (building it or installing it), all its dependencies are completely installed in the library, whatever the interleaving, provided every package file is there and what was in the library at the start was complete. | C91_violated_missing_file: C91 does not hold either when a dependency's file is missing: `b` is built although `a`, which it needs, is not in the library."
  },
  {
   "property": "C92",
   "status": "partial",
   "theorems": [
    "Pkgr.C92_all_present_partial",
    "Pkgr.C92_violated_missing_files"
   ],
   "note": "C92_all_present_partial: C92: when the run returns without error every package of the plan is completely installed in the library, provided every package file was there and what was in the library at the start was complete. | C92_violated_missing_files: C92 does not hold without the package files: a run in which no package file exists returns without an error, and no package is in the library."
  },
  {
   "property": "C93",
   "status": "partial",
   "theorems": [
    "Pkgr.C93_violated_interrupted",
    "Pkgr.C93_complete_partial",
    "Pkgr.C93_cache_kept"
   ],
   "note": "C93_violated_interrupted: C93 does not hold: whenever the updater is about to copy a non-empty binary, the process may be interrupted at a moment that leaves a part of it where every later run looks for the binary of this package, and a later run in which the package is to be installed goes on to install that part. | C93_complete_partial: C93, what does hold: when the updater has finished copying a binary, the complete content that R built is at the destination, and the original is gone."
  },
  {
   "property": "C94",
   "status": "partial",
   "theorems": [
    "Pkgr.C94_violated_leftover_kept",
    "Pkgr.C94_violated_interrupted",
    "Pkgr.C94_next_run_partial"
   ],
   "note": "C94_violated_leftover_kept: C94 does not hold: whatever is in the directory of a planned package when a run begins - say what an interrupted run has left there - is in it unchanged at every moment of the run. No run ever completes it. | C94_violated_interrupted: C94 does not hold: a run that starts from a sound state is interrupted while R installs a package; the next run returns without an error although the package is not complete. | C94_next_run_partial: C94, what does hold: if what the interrupted run left in the library is removed first (or is complete), and so are binaries it left half-copied in the cache, a run that returns without an error leaves every package complete; and so does every further run."
  },
  {
   "property": "C95",
   "status": "proved",
   "theorems": [
    "Pkgr.C95_tree",
    "Pkgr.C95_lines_for_a_chain"
   ],
   "note": "Full statement proved."
  },
  {
   "property": "C96",
   "status": "partial",
   "theorems": [
    "Pkgr.C96_table",
    "Pkgr.C96_named",
    "Pkgr.C96_violated_reverse_tree"
   ],
   "note": "C96_violated_reverse_tree: C96 is violated for `--reverse --tree`: with named packages, the tree shows the same with and without `--reverse`, namely what they need, not what needs them."
  },
  {
   "property": "C97",
   "status": "partial",
   "theorems": [
    "Pkgr.C97_loaded",
    "Pkgr.C97_violated_missing"
   ],
   "note": "C97_violated_missing: C97 is violated when a configured package cannot be obtained: `load --all` then loads nothing at all, where it should load the packages of the configuration."
  },
  {
   "property": "C98",
   "status": "proved",
   "theorems": [
    "Pkgr.C98_installers"
   ],
   "note": "Full statement proved."
  },
  {
   "property": "C99",
   "status": "proved",
   "theorems": [
    "Pkgr.C99_command_line",
    "Pkgr.C99_passes",
    "Pkgr.C99_default"
   ],
   "note": "Full statement proved."
  },
  {
   "property": "C100",
   "status": "partial",
   "theorems": [
    "Pkgr.C100_expansion",
    "Pkgr.C100_plain_text",
    "Pkgr.C100_reference",
    "Pkgr.C100_lines_partial",
    "Pkgr.C100_violated_across_lines"
   ],
   "note": "C100_lines_partial: C100, partial: when every `${` is closed on its line, the lines of the file are expanded one by one; so no reference touches another line. Missing: `${` that is not closed on its line, see `C100_violated_across_lines`. | C100_violated_across_lines: C100 is violated for a `${` that is not closed on its line: the lines up to the next closing brace disappear."
  },
  {
   "property": "C101",
   "status": "proved",
   "theorems": [
    "Pkgr.C101_tilde"
   ],
   "note": "Full statement proved."
  },
  {
   "property": "C102",
   "status": "proved",
   "theorems": [
    "Pkgr.C102_named",
    "Pkgr.C102_lockfile"
   ],
   "note": "Full statement proved."
  },
  {
   "property": "C103",
   "status": "partial",
   "theorems": [
    "Pkgr.C103_renv_output",
    "Pkgr.C103_directory_partial",
    "Pkgr.C103_violated_directory"
   ],
   "note": "C103_directory_partial: C103, partial: R and renv are run in the directory of the configuration file, where relative paths are to be understood, if this is the directory in which the program was started. Missing: a configuration file elsewhere, see `C103_violated_directory`. | C103_violated_directory: C103 is violated with `--config`: for a configuration in another directory renv is asked in the directory the program was started in, so for another project's library (and a relative path of R is looked up there, too)."
  },
  {
   "property": "C104",
   "status": "partial",
   "theorems": [
    "Pkgr.C104_os_release_partial",
    "Pkgr.C104_violated"
   ],
   "note": "C104_os_release_partial: C104, partial: for a file of remarks and of settings with distinct names and usual characters, in which quoted values have no equals sign, values without quotes are not empty and remarks do not end in an equals sign, name, version and code name of the distribution are those of the file. Missing: see `C104_violated`. | C104_violated: C104 is violated: a quoted value with an equals sign, as in many URLs, or an empty value makes the whole file unreadable, and so does a remark that ends in an equals sign; a value in single quotes, which os-release allows, keeps its quotes; an escaped dollar sign, which os-release asks for, is no escape of TOML and makes the file unreadable."
  },
  {
   "property": "C105",
   "status": "partial",
   "theorems": [
    "Pkgr.C105_directory_partial",
    "Pkgr.C105_violated_major_version",
    "Pkgr.C105_supports_iff",
    "Pkgr.C105_violated_unknown"
   ],
   "note": "C105_directory_partial: C105, partial: the directory of the binaries is `ubuntu/<code name>` on Ubuntu, `centos/<major version>` on CentOS and RHEL with a major version of one digit, and `<name>/<version>` elsewhere. Missing: see `C105_violated_major_version`. | C105_violated_major_version: C105 is violated for a major version of two digits, of which only the first is used, and the program crashes when a CentOS does not say its version. | C105_violated_unknown: C105 is violated as to the distributions: one that is not in the program's table is treated as supporting binaries."
  },
  {
   "property": "C106",
   "status": "proved",
   "theorems": [
    "Pkgr.C106_table",
    "Pkgr.C106_complete",
    "Pkgr.C106_descriptions",
    "Pkgr.C106_recorded",
    "Pkgr.C106_installed_from"
   ],
   "note": "Full statement proved."
  },
  {
   "property": "C107",
   "status": "partial",
   "theorems": [
    "Pkgr.C107_independent_partial",
    "Pkgr.C107_violated"
   ],
   "note": "C107_independent_partial: C107, partial: when no tarball needs the package of another one, the outcome of installing them does not depend on the order in which they are visited; it is a success exactly if all they need is in the library when the last package of the plan is installed. Missing: tarballs that need each other, see `C107_violated`. | C107_violated: C107 is violated: if the tarball of `a` needs the package `b`, which is not in the library but given by another tarball, there is an order of visiting the tarballs in which the installation fails."
  },
  {
   "property": "C108",
   "status": "partial",
   "theorems": [
    "Pkgr.C108_sources_partial",
    "Pkgr.C108_violated_name",
    "Pkgr.C108_total_partial"
   ],
   "note": "C108_sources_partial: C108: for every repository the number of packages reported is the number of planned downloads from repositories of that name (none is reported if there are none), and the number of tarballs is the number of packages given as tarballs; except that a repository called \"tarballs\" is not counted, see `C108_violated_name`. | C108_violated_name: C108 is violated for a repository called \"tarballs\": its packages are not reported. | C108_total_partial: C108: when no repository is called \"tarballs\", the reported numbers add up to the number of packages to be had: every planned package once, and every package given as a tarball."
  },
  {
   "property": "C109",
   "status": "partial",
   "theorems": [
    "Pkgr.C109_listing_partial",
    "Pkgr.C109_violated_update",
    "Pkgr.C109_violated_count",
    "Pkgr.C109_violated_tarball"
   ],
   "note": "C109_listing_partial: C109: when no tarballs are given and nothing is updated, then * if none of the planned packages is in the library, or all are, none is listed; * otherwise exactly the planned packages that are not in the library are listed, each once, with the version, repository and type they are taken in. | C109_violated_update: C109 is violated: an outdated package that will be updated is not listed among the packages to install ... | C109_violated_count: ... and when as many packages are updated as are in the library none is listed at all, although `a` and `c` are to be installed into a library that has `b`. | C109_violated_tarball: ... and a tarball's package is listed with the version and repository it would have from a repository (or, if no repository has it, with neither name nor version)."
  },
  {
   "property": "C110",
   "status": "proved",
   "theorems": [
    "Pkgr.C110_success",
    "Pkgr.C110_failure",
    "Pkgr.C110_interrupted"
   ],
   "note": "Full statement proved."
  },
  {
   "property": "C111",
   "status": "proved",
   "theorems": [
    "Pkgr.C111_same_packages",
    "Pkgr.C111_second_install"
   ],
   "note": "Full statement proved."
  },
  {
   "property": "C112",
   "status": "partial",
   "theorems": [
    "Pkgr.C112_nothing_undone",
    "Pkgr.C112_installed_stay",
    "Pkgr.C112_violated_old_version_lost"
   ],
   "note": "C112_violated_old_version_lost: C112 fails for packages that were installed before: an outdated package whose update fails is lost. It was set aside before, nothing has taken its place, and the backup is deleted all the same."
  },
  {
   "property": "C113",
   "status": "partial",
   "theorems": [
    "Pkgr.C113_report_partial",
    "Pkgr.C113_libpaths_partial",
    "Pkgr.C113_libpaths_unknown",
    "Pkgr.C113_violated_libpaths"
   ],
   "note": "C113_report_partial: C113 (partial: no package listed twice). In the finished report, whatever the schedule, every package that is tested has a result; it is a success iff `library('p')`, evaluated by the configured R in the given directory and in the environment in which pkgr was started, ends with status zero; what that R printed is in the report (if it prints lines without white space at their ends, numbers in brackets at their beginning, or empty lines); and path and version are those R prints for the package, or said to be unknown if the R that is asked for them fails. | C113_libpaths_partial: C113 (partial). The library paths in the report are those R prints, if it prints one on each row, prints nothing on the error stream, and ends well. | C113_violated_libpaths: C113 fails: R prints two library paths that are short enough on one row, and then the report has them as one."
  },
  {
   "property": "C114",
   "status": "partial",
   "theorems": [
    "Pkgr.C114_directory_partial",
    "Pkgr.C114_violated_relative",
    "Pkgr.C114_violated"
   ],
   "note": "C114_directory_partial: C114 (partial). The R sessions of `pkgr load` run in the directory of the configuration file, if this is `pkgr.yml` in the current directory, another file in the current directory, or a file given by its absolute path. | C114_violated_relative: C114 fails for a configuration file `d/n` given by a relative path: the sessions run in the directory that `d` denotes when followed not from the directory pkgr was started in, but from the directory of the configuration file. | C114_violated: C114 fails: `pkgr load --config sub/pkgr.yml` runs R in `sub/sub`."
  },
  {
   "property": "C115",
   "status": "partial",
   "theorems": [
    "Pkgr.C115_session_partial",
    "Pkgr.C115_package_env_partial",
    "Pkgr.C115_no_package_env",
    "Pkgr.C115_violated_status",
    "Pkgr.C115_violated_other_env",
    "Pkgr.C115_violated_r_libs"
   ],
   "note": "C115_session_partial: C115 (partial: library paths with an equals sign or a blank at an end excepted). `pkgr run` starts the configured R in the project's directory, without any profile, and with the configuration's library as the only site library and an empty user library, whatever the inherited environment and the customizations. | C115_package_env_partial: C115 (partial, exceptions as in `C64_package_env_wins_partial`). With `--pkg`, every variable in the `Env` of the package's (first) customization has its value in the session. | C115_violated_status: C115 fails: pkgr ends with status 0 whatever becomes of R, even if it cannot be started at all. | C115_violated_other_env: C115 fails: when a package has two entries with an `Env`, the session has the first, while the package is installed with the last. | C115_violated_r_libs: C115 fails: an inherited R_LIBS puts other libraries before the configuration's library."
  },
  {
   "property": "C116",
   "status": "partial",
   "theorems": [
    "Pkgr.C116_same_file_partial",
    "Pkgr.C116_violated_relative",
    "Pkgr.C116_violated",
    "Pkgr.C116_install_reads_edited",
    "Pkgr.C116_installs_added_partial"
   ],
   "note": "C116_same_file_partial: C116 (partial). `add` and `remove` edit the configuration file that is in use, if this is `pkgr.yml` in the current directory, another file in the current directory, or a file given by its absolute path. | C116_violated_relative: C116 fails for a configuration file `d/n` given by a relative path: the file that is edited is the one that `d/n` denotes in the directory of the configuration file, not in the directory pkgr was started in. | C116_violated: C116 fails: with `--config sub/pkgr.yml`, `add` fails although this file is fine, and if there is a file `sub/sub/pkgr.yml`, it is that one which is changed. | C116_installs_added_partial: C116 and C167: with `add --install`, the file that is read again for the installation lists all given packages, and all that were listed before."
  },
  {
   "property": "C117",
   "status": "partial",
   "theorems": [
    "Pkgr.C117_add_only_that_file",
    "Pkgr.C117_add_result",
    "Pkgr.C117_remove_only_that_file",
    "Pkgr.C117_remove_result",
    "Pkgr.C117_violated_interrupted",
    "Pkgr.C117_violated_interrupted_remove"
   ],
   "note": "C117_violated_interrupted: C117 fails: whenever `add` changes the file, there is a moment at which the file is empty; a run that is interrupted then has lost the configuration. | C117_violated_interrupted_remove: C117 fails in the same way for `remove`, even if there is nothing to be removed."
  },
  {
   "property": "C118",
   "status": "proved",
   "theorems": [
    "Pkgr.C118_layout",
    "Pkgr.C118_downloads_spare_library",
    "Pkgr.C118_delivers",
    "Pkgr.C118_install",
    "Pkgr.C118_plan"
   ],
   "note": "Full statement proved."
  },
  {
   "property": "C119",
   "status": "partial",
   "theorems": [
    "Pkgr.C119_reported_partial",
    "Pkgr.C119_not_counted_partial",
    "Pkgr.C119_violated_own_directory"
   ],
   "note": "C119_reported_partial: C119 (part). If nothing was downloaded for a package of the plan, it is not in the library, and no cached binary could be taken for it, then the queue never returns without an error: for every interleaving, every moment and every R within its contract. What is missing: R is also supposed to leave no regular file in its working directory that has the name of the directory pkgr was started in, because pkgr makes R build that directory in the place of the missing file; the place of the cached binary of a package without a name is supposed to be empty; and that the package is not counted as installed needs more (`C119_not_counted_partial`, `C119_violated_own_directory`). | C119_not_counted_partial: C119 (part). If R leaves nothing at all under that name, the package is never counted as installed, its directory does not appear in the library, and no package that needs it is started. | C119_violated_own_directory: C119 does not hold when pkgr is started in the directory of a package: for the package `a`, for which nothing was downloaded, R is made to build that directory; `a` is then counted as installed, though it is not in the library, and the run does not end with an error but never ends."
  },
  {
   "property": "C120",
   "status": "partial",
   "theorems": [
    "Pkgr.C120_log_file_partial",
    "Pkgr.C120_violated_commands",
    "Pkgr.C120_no_file",
    "Pkgr.C120_violated_add_install",
    "Pkgr.C120_violated_start"
   ],
   "note": "C120_log_file_partial: C120 (partial: not for `plan`, `load`, `run`, `clean cache`, `clean pkgdbs` and `add --install`, and without what is said before the configuration is read). `install`, `inspect`, `add`, `remove` and `clean` append to the configured file, or with `overwrite` fill it anew, one line for every record that is shown, in order, the fatal one that ends the program included, and logging touches no other file. | C120_violated_commands: C120 fails for five commands: whatever the configuration, whatever they say, they write no log file. | C120_violated_add_install: C120 fails for `add --install` without a log file for `install`: the file is opened twice, every record of the installation is in it twice, and with `overwrite` the records of the first part of the command are lost. | C120_violated_start: The records that are shown before the configuration is read are in no log file (here: a warning)."
  },
  {
   "property": "C121",
   "status": "proved",
   "theorems": [
    "Pkgr.C121_word",
    "Pkgr.C121_shown",
    "Pkgr.C121_shown_add_install"
   ],
   "note": "Full statement proved."
  },
  {
   "property": "C122",
   "status": "partial",
   "theorems": [
    "Pkgr.C122_reported_partial",
    "Pkgr.C122_reported_at_start_partial",
    "Pkgr.C122_violated_panic"
   ],
   "note": "C122_reported_partial: C122 (partial: at every level but `panic`). If a record ends pkgr, it is the last thing on the screen. | C122_reported_at_start_partial: C122, for the records before the configuration is read. | C122_violated_panic: C122 fails with `--loglevel=panic`: pkgr ends without a word."
  },
  {
   "property": "C123",
   "status": "partial",
   "theorems": [
    "Pkgr.C123_document_partial",
    "Pkgr.C123_violated_cache",
    "Pkgr.C123_violated_trace"
   ],
   "note": "C123_document_partial: C123 (partial: if nothing is printed on the way, and nothing shown before the configuration was read). With `--json` the output of `load` and `inspect` is the document and nothing else, whatever is logged in between. | C123_violated_cache: C123 fails where there is no user cache directory: the remark of cran/repodb.go:315 is printed into the document. | C123_violated_trace: C123 fails with `--loglevel=trace`: what was logged before the configuration was read is in front of the document."
  },
  {
   "property": "C124",
   "status": "partial",
   "theorems": [
    "Pkgr.C124_meant_partial",
    "Pkgr.C124_violated_case",
    "Pkgr.C124_violated_null"
   ],
   "note": "C124_meant_partial: C124 (partial: keys written as in the documentation, no entry without settings). The customizations have the effect (`setPlanCustomizations`, of which C28 and C88 speak) of what is written. | C124_violated_case: C124 fails for keys in another case: they are decoded, but never have any effect. | C124_violated_null: C124 fails for an entry without settings: if it is the first one of its package, planning never comes to an end in order; alone, it crashes."
  },
  {
   "property": "C125",
   "status": "proved",
   "theorems": [
    "Pkgr.C125_asks_again",
    "Pkgr.C125_next_run",
    "Pkgr.C125_others"
   ],
   "note": "Full statement proved."
  },
  {
   "property": "C126",
   "status": "partial",
   "theorems": [
    "Pkgr.C126_violated_unreadable",
    "Pkgr.C126_violated_offline",
    "Pkgr.C126_violated_no_packages",
    "Pkgr.C126_works_partial"
   ],
   "note": "C126_violated_unreadable: C126 is violated by a young database that cannot be read, as an interrupted run leaves it: `clean pkgdbs`, which would get rid of it, ends at once, and the file stays. | C126_violated_offline: C126 is violated without a network: if a single configured repository has no young database, `clean pkgdbs` ends without removing any young one. | C126_violated_no_packages: C126 is violated when no packages are configured: planning crashes (C30) before anything is removed. | C126_works_partial: C126, as far as it holds: whatever databases are cached, old or young, `clean pkgdbs` does its work if the young ones can be read, the repositories answer, and planning (of packages: there are no tarballs or DESCRIPTION files here) neither meets a wrong customization nor crashes. Packages that are missing do no harm."
  },
  {
   "property": "C127",
   "status": "partial",
   "theorems": [
    "Pkgr.C127_nothing_without_all",
    "Pkgr.C127_violated_tarballs",
    "Pkgr.C127_gone_partial"
   ],
   "note": "C127_violated_tarballs: C127 is violated by tarballs: cleaning the databases plans an installation, which unpacks them into the cache again, right after their folders were removed. | C127_gone_partial: C127, as far as it holds: `pkgr clean --all`, when it comes to its end, has removed every package (source or binary) from the folder of every repository in the cache, whether or not the repository is configured, and the database of every configured one. Left out: folders that have the name of an unpacked tarball."
  },
  {
   "property": "C128",
   "status": "proved",
   "theorems": [
    "Pkgr.C128_no_race",
    "Pkgr.C128_linearizable",
    "Pkgr.C128_in_order",
    "Pkgr.C128_stored",
    "Pkgr.C128_seen",
    "Pkgr.C128_no_deadlock",
    "Pkgr.C128_ends"
   ],
   "note": "Full statement proved."
  },
  {
   "property": "C129",
   "status": "proved",
   "theorems": [
    "Pkgr.C129_error",
    "Pkgr.C129_cut_short",
    "Pkgr.C129_report",
    "Pkgr.C129_status"
   ],
   "note": "Full statement proved."
  },
  {
   "property": "C130",
   "status": "proved",
   "theorems": [
    "Pkgr.C130_files",
    "Pkgr.C130_overall",
    "Pkgr.C130_full",
    "Pkgr.C130_names",
    "Pkgr.C130_written"
   ],
   "note": "Full statement proved."
  },
  {
   "property": "C131",
   "status": "partial",
   "theorems": [
    "Pkgr.C131_shown",
    "Pkgr.C131_counts",
    "Pkgr.C131_failure_output",
    "Pkgr.C131_error",
    "Pkgr.C131_status_partial",
    "Pkgr.C131_violated"
   ],
   "note": "C131_status_partial: C131, the part that holds: a run that was read and understood ends with status 1 exactly if a named test failed, or one was skipped and -allow-skips is not given; else with status 0. Missing: failures that go test reports for a whole package. | C131_violated: C131 fails for failures of a whole package (it does not compile, its TestMain fails, it panics or runs into the time limit outside a test): go test reports a \"fail\" record without a test for it, which is passed over, so the exit status is 0 although the usage message says that any \"fail\" record gives 1."
  },
  {
   "property": "C132",
   "status": "partial",
   "theorems": [
    "Pkgr.C132_from_repo_partial",
    "Pkgr.C132_violated"
   ],
   "note": "C132_from_repo_partial: C132, what the lookup in one repository does: the package is obtained from the first repository of that name (any, if none is named) that offers it in the type set for the package, and in that type. Missing: packages for which no type is set (none is ever found). | C132_violated: C132 fails for packages without settings: package `a`, which both repositories offer as source, the default type, is found by the ordinary lookup, but not by the lookup in the repository it comes from: the default type is not put in."
  },
  {
   "property": "C133",
   "status": "partial",
   "theorems": [
    "Pkgr.C133_asked_once",
    "Pkgr.C133_no_version",
    "Pkgr.C133_same_R_partial",
    "Pkgr.C133_renv_asked",
    "Pkgr.C133_violated_tilde",
    "Pkgr.C133_violated_again"
   ],
   "note": "C133_same_R_partial: C133, partial: unless the configured path starts with a tilde, every process a command starts until it has its settings is of the R that is configured, and the command goes on with that R. Missing: a path with a tilde when the library is that of a lockfile, see `C133_violated_tilde`. | C133_violated_tilde: C133 fails for a path of R that starts with a tilde when the library is left to a lockfile: the tilde is expanded only after R has been run for the first time, so that R is not found and the command ends - although the same path works when a library is given. | C133_violated_again: C133 fails for an R that states no version the way a release does (\"R Under development\"): it is asked again and again, and may say something else."
  },
  {
   "property": "C134",
   "status": "partial",
   "theorems": [
    "Pkgr.C134_never_lost_partial",
    "Pkgr.C134_retry_failed_partial",
    "Pkgr.C134_retry_ok_partial",
    "Pkgr.C134_violated_leftover",
    "Pkgr.C134_violated_half_deleted"
   ],
   "note": "C134_never_lost_partial: C134, a part: after any number of runs of `pkgr install`, each interrupted at any moment before it deletes backups, an installed package is complete at its place or in its backup, and the next run finds it. | C134_retry_failed_partial: C134, a part: when after any number of interrupted runs a run fails with rollback on (and without an I/O error), each package that was installed before all of them is complete at its place or in its backup; and it is at its place, without backup, if the last run set it aside (because it is outdated or replaced by a tarball). | C134_retry_ok_partial: C134, a part: when a run on a library with backups left over from interrupted runs reports no failure (and no removal fails), no backup is left of the packages it found outdated or replaced by a tarball. | C134_violated_leftover: C134 does not hold for a backup whose package the next run does not find outdated (its listing of the library has the new version last): that backup stays, whatever the run does and however it ends. | C134_violated_half_deleted: C134 does not hold for a run that is killed while it deletes the backups: version 2 of `a` is complete in its place and the backup of version 1 has lost a file. The second run finds version 1 (the backup is listed last) and takes `a` to be outdated; when it fails, the rollback deletes the complete version 2 and puts the incomplete version 1 in its place."
  },
  {
   "property": "C135",
   "status": "partial",
   "theorems": [
    "Pkgr.C135_in_force",
    "Pkgr.C135_refused_iff",
    "Pkgr.C135_option_decides",
    "Pkgr.C135_no_update_given",
    "Pkgr.C135_strict_given",
    "Pkgr.C135_library_threads",
    "Pkgr.C135_own_options_partial",
    "Pkgr.C135_own_options_exact_partial",
    "Pkgr.C135_config_partial",
    "Pkgr.C135_violated_config_key",
    "Pkgr.C135_violated_own_option",
    "Pkgr.C135_violated_loglevel",
    "Pkgr.C135_no_rollback_given"
   ],
   "note": "C135_own_options_partial: C135, what holds of a command's own options (`load --all`, `load --json`, `plan --show-deps`) and of the log: an own option that is given decides, and one that is not given is off if the file has no key of its name; the first time, the level and the format of the log are what the options say. The full claim (the file does not matter) is refuted below. | C135_own_options_exact_partial: C135, exactly: a command's own option is what the command line says, else what the file says under that name (what is no truth value counts as no), else off. The log's level and format are what the command line says, else the plain log without a level; the second time, in `add --install`, the file is asked too, and without all that the level is `info`. | C135_config_partial: C135, what holds of `--config`: the file that is read is the one named by the option (`pkgr.yml` if it is not given, see C116); and when it is asked for later (by `load`, and by `add --install`) the answer is the same, if the file has no key `config`. | C135_violated_config_key: C135 is violated for `--config`: with a key `config` in the file, which is no setting, `add --install` edits `pkgr.yml` but installs what another file says. | C135_violated_own_option: C135 is violated for a command's own options: a key of the file that is no setting switches on an option of another command that was not given. | C135_violated_loglevel: C135 is violated for the log: the level in the file does not count, although nothing else is said about it; but it counts after the configuration is read a second time (`add --install`), in the same run."
  },
  {
   "property": "C136",
   "status": "partial",
   "theorems": [
    "Pkgr.C136_install_partial",
    "Pkgr.C136_read_back_partial",
    "Pkgr.C136_violated_depends",
    "Pkgr.C136_no_update_partial"
   ],
   "note": "C136_install_partial: C136 (partial: an unambiguous configuration, the assumptions of `WellPosed` and `TarballsOK`). `pkgr install`, from the configuration and the index files to the library: the repositories answer in any order, the plan is made from what they publish, the downloads and the installations interleave in any way. If the library was in order, the package cache holds what it should and the repositories deliver the rest, R's exit status can be trusted and there is no I/O error, then a run that reports no failure leaves every wanted package in the library, in a version that is not older than the published one; what was there and was not older is untouched; and nothing else in the library has changed, except R's locks. | C136_read_back_partial: C136 (partial, as above), with the real reader of DESCRIPTION files (C151, C152): R's exit status 0 promises a well written DESCRIPTION with the right name and a version that is not older than the published one, and what is wanted and already in the library is made of fields that can be stamped. Then after a run that reports no failure the next command reads, for every wanted package, its name and such a version. | C136_violated_depends: C136 is violated by `Depends`: what a tarball or the project's DESCRIPTION names there only is not missed. If it was not in the library, it is not there after a run that reports success, whether or not it can be had. | C136_no_update_partial: C136 (partial, as `C136_install_partial`), when updates are forbidden: a run that reports no failure leaves every wanted package completely installed, those that were in the library and are not given as tarballs as they were, however old they are; nothing else in the library has changed, except R's locks."
  },
  {
   "property": "C137",
   "status": "partial",
   "theorems": [
    "Pkgr.C137_again_partial",
    "Pkgr.C137_violated_tarball"
   ],
   "note": "C137_again_partial: C137 (partial: as C136, and tarballs are installed again each time). Installing again, from the same configuration, when the repositories still publish the same and nobody has touched the library in between (the database cache may have grown old or not): the second plan wants the same packages, finds every one of them installed and none of them outdated, and whatever happens to the second run - it succeeds, it fails, it is interrupted anywhere - nothing in the library is ever changed, except the packages that are given as tarballs, their backups, and R's locks. | C137_violated_tarball: C137 fails with tarballs: whatever comes of the second run, at some moment of it the package that is given as a tarball, and that the first run has installed, is not in the library."
  },
  {
   "property": "C138",
   "status": "partial",
   "theorems": [
    "Pkgr.C138_failure_partial",
    "Pkgr.C138_interrupted_partial",
    "Pkgr.C138_others_partial",
    "Pkgr.C138_violated_rename",
    "Pkgr.C138_no_update_partial"
   ],
   "note": "C138_failure_partial: C138 (partial, as C136). `pkgr install`, from the configuration to the library, when something fails: a run that reports a failure, with rollback on and without I/O errors, leaves the library exactly as it was, except for R's locks. | C138_interrupted_partial: C138 (partial, as C136). Wherever the run is interrupted before the backups are deleted, every wanted package that was installed is still in the library, at its place or in its backup, whole. Any I/O error may happen, but a failing rename of a package to its backup. | C138_others_partial: C138 (partial, as C136). In every state that the file system goes through, whatever fails (I/O errors included) and wherever the process dies, everything in the library that is not a wanted package, the backup of one or an R lock is unchanged. | C138_violated_rename: C138 fails with I/O errors: if packages cannot be renamed and the run fails, then the rollback deletes the first wanted package that is outdated; what there was of it is in no backup. | C138_no_update_partial: C138 (partial, as `C138_others_partial`), when updates are forbidden: at every moment of the run, whatever fails and wherever it is interrupted, a wanted package that was in the library and is not given as a tarball is as it was."
  },
  {
   "property": "C139",
   "status": "partial",
   "theorems": [
    "Pkgr.C139_stops",
    "Pkgr.C139_fails",
    "Pkgr.C139_opens",
    "Pkgr.C139_nothing_cached",
    "Pkgr.C139_violated_empty"
   ],
   "note": "C139_violated_empty: C139 is violated by platforms without binaries: if the only index is refused, the repository opens, without any package, and this is written to the cache."
  },
  {
   "property": "C140",
   "status": "partial",
   "theorems": [
    "Pkgr.C140_copy_removed_partial",
    "Pkgr.C140_violated_remains",
    "Pkgr.C140_violated_user_library"
   ],
   "note": "C140_copy_removed_partial: C140, the part that holds: however the installation goes, when it has returned nothing of the copy of the package that was installed in the temporary directory is left; missing: the directory itself, and the binary built in it (`C140_violated_remains`). | C140_violated_remains: C140 fails: whenever a package is built, the temporary directory is still there afterwards, with the binary that was built in it and everything else R's build left in it beside the package. | C140_violated_user_library: C140 is violated by the user libraries too: whatever is run, the directory made for every single R process stays."
  },
  {
   "property": "C141",
   "status": "partial",
   "theorems": [
    "Pkgr.C141_bounded",
    "Pkgr.C141_progress",
    "Pkgr.C141_existing_kept",
    "Pkgr.C141_apart_partial",
    "Pkgr.C141_settles_partial",
    "Pkgr.C141_violated_half_written",
    "Pkgr.C141_violated_overwritten"
   ],
   "note": "C141_apart_partial: C141, runs that do not share a file: a download whose destination no other download has ends, whatever the others do, as it would have ended alone, with the same file. | C141_settles_partial: C141, the part that holds: if the servers deliver the same complete content to all downloads of a file (and its directory is there), then once all of them have returned, in whatever way their steps were interleaved, the file is complete, and every one of them was given its path; missing: at the moments in between it may be incomplete, and downloads that have returned already use it (`C141_violated_half_written`, `C141_violated_overwritten`). | C141_violated_half_written: C141 fails: whenever two runs need the same package file and it is not in the cache, the second may find the file while the first is still writing it, and use what is there, without contacting the server. | C141_violated_overwritten: C141 fails also for the run that downloads the file completely: when both have asked for the file, the second run's download empties the file that the first has just written, and the first returns with it."
  },
  {
   "property": "C142",
   "status": "partial",
   "theorems": [
    "Pkgr.C142_others_kept_partial",
    "Pkgr.C142_violated_new",
    "Pkgr.C142_violated_library",
    "Pkgr.C142_violated_lost"
   ],
   "note": "C142_others_kept_partial: C142, as far as it holds: on a library that exists, whatever happened to the library while a run was installing, the run itself - setting packages aside before, its rollback and the deletion of its backups, finished or killed half-way - changes nothing but the packages of its own plan and their backups, so what other runs install beside its plan stays. Missing: packages in the plans of two runs, and libraries that both find missing; see `C142_violated_new`, `C142_violated_library` and `C142_violated_lost`. | C142_violated_new: C142 does not hold for a package that two runs plan: a run that fails deletes every package of its plan that was not there when it made its plan, also one that another run has installed and reported as installed in the meantime. | C142_violated_library: C142 does not hold for a library that is missing when two runs begin: each of them creates it, and if one fails, it deletes the whole library, with all that the other has installed. | C142_violated_lost: C142 does not hold for a package that two runs update: both keep their backups under the same names. Let the run `b` of the same plan do its work while the run `a` is installing (`b` finds its backups already made), and succeed: it deletes the backups. If then `a` fails, its rollback deletes the first outdated package in the version that `b` has installed and has no backup to put in its place: neither the old nor the new version is left."
  },
  {
   "property": "C143",
   "status": "partial",
   "theorems": [
    "Pkgr.C143_updates_partial",
    "Pkgr.C143_violated_not_planned",
    "Pkgr.C143_required_partial",
    "Pkgr.C143_violated_twice"
   ],
   "note": "C143_updates_partial: C143, when every outdated package is part of the plan: the packages announced as to be updated, of which `to_update` is the number, are - unless updates are switched off, when there are none - exactly the planned packages that are in the library in an older version than the one that is downloaded; each is announced once, with these two versions. Missing: outdated packages that are not part of the plan, see `C143_violated_not_planned`. | C143_violated_not_planned: C143 is violated by outdated packages in the library that are not part of the plan: they are announced as to be updated, and counted, but however the installation goes they are not touched at any moment. | C143_required_partial: C143: the number of packages required is the number of planned packages and tarballs, whatever the order the tables are read in, and each counts once if no tarball is of a planned package. | C143_violated_twice: C143 is violated by a tarball of a package that is planned from a repository, too: it counts twice."
  },
  {
   "property": "C144",
   "status": "partial",
   "theorems": [
    "Pkgr.C144_origins_partial",
    "Pkgr.C144_tarballs",
    "Pkgr.C144_violated_twice"
   ],
   "note": "C144_origins_partial: C144, when no package is asked for twice: every planned package is reported exactly once, with the version, repository and type it is downloaded in, as asked for exactly if it was asked for and as a dependency otherwise. Missing: packages that the configuration lists twice, see `C144_violated_twice`. | C144_violated_twice: C144 is violated when the configuration lists a package twice: it is reported twice."
  },
  {
   "property": "C145",
   "status": "proved",
   "theorems": [
    "Pkgr.C145_roundtrip",
    "Pkgr.C145_unambiguous",
    "Pkgr.C145_load",
    "Pkgr.C145_load_session",
    "Pkgr.C145_inspect",
    "Pkgr.C145_inspect_plan",
    "Pkgr.C145_installed_from",
    "Pkgr.C145_installed_from_library",
    "Pkgr.C145_load_verbatim"
   ],
   "note": "Full statement proved."
  },
  {
   "property": "C146",
   "status": "partial",
   "theorems": [
    "Pkgr.C146_readers_partial",
    "Pkgr.C146_never_a_part_partial",
    "Pkgr.C146_violated_mixed",
    "Pkgr.C146_violated_early"
   ],
   "note": "C146_readers_partial: **C146** (partial: a complete and fresh file; the full claim is for any state of the cache). Any number of runs that start when the file is complete and that take it for fresh get exactly the database in it, whatever the order of their steps and whichever of them are interrupted; none fails, and the file stays as it is. | C146_never_a_part_partial: **C146** (partial: when no two runs update the file at the same time; any number may read it meanwhile, run one after the other, or be interrupted anywhere). Whenever a run opens the repository, the database it gets is one that the repository published and that was fetched in full, by this run or an earlier one, or one that was in the file completely at the beginning: never a part of a database, or a mixture. The file at the beginning may itself have been left by an interrupted run. | C146_violated_mixed: C146 fails when two runs update the file at the same time: both fetched all packages of the repository and both ended well, and a later run opens the repository with one package missing. | C146_violated_early: C146 fails when a run opens the file that another is writing: it ends with an error although the repository is in order and the other run ends well; and when a run was interrupted while writing: up to an hour later the next ends with an error."
  },
  {
   "property": "C147",
   "status": "proved",
   "theorems": [
    "Pkgr.C147_planning",
    "Pkgr.C147_library",
    "Pkgr.C147_log"
   ],
   "note": "Full statement proved."
  },
  {
   "property": "C148",
   "status": "partial",
   "theorems": [
    "Pkgr.C148_outcome_partial",
    "Pkgr.C148_one_outcome",
    "Pkgr.C148_violated"
   ],
   "note": "C148_outcome_partial: C148, how planning ends in every case: with the missing packages, with the report of a circular dependency, with a plan - or with a crash, if nothing is requested, or if some installed package that the repositories offer has, there or in the library, a version without a separator. Missing: the two crashes. | C148_violated: C148 fails: with package `c` installed in version `2`, every plan for package `c` crashes, although the repository offers `c`; with `2.0` installed, there is a plan."
  },
  {
   "property": "C149",
   "status": "partial",
   "theorems": [
    "Pkgr.C149_index_partial",
    "Pkgr.C149_source_index_partial",
    "Pkgr.C149_package_partial",
    "Pkgr.C149_absolute",
    "Pkgr.C149_violated_database",
    "Pkgr.C149_violated_directory",
    "Pkgr.C149_violated_package",
    "Pkgr.C149_violated_unreadable",
    "Pkgr.C149_violated_name"
   ],
   "note": "C149_index_partial: C149 (partial). A repository given as a directory: the index of a source type is the file one finds by following, from that directory, the rest of the index's URL (`src/contrib/PACKAGES`, or the platform's directory of binaries). If the file can be read, its text is the index; if it is missing, it is reported as such. Missing: a file that is there and cannot be read, and what was cached, see the `violated` theorems. | C149_source_index_partial: C149 (partial), of the source index: it is `src/contrib/PACKAGES` in the directory. | C149_package_partial: C149 (partial). The source file of a package of a repository given as a directory, if it has to be fetched, is a copy of the file of that name in `src/contrib` of the directory; if that file is missing or may not be read the run ends. Missing: what is in the cache already, see the `violated` theorems. | C149_violated_database: C149 is violated by the cache of databases: with one and the same relative path in two projects, the second project gets, for an hour, the packages of the repository of the first; those that are published in its own repository are not found. | C149_violated_directory: C149 is violated by a directory in the place of the package file: the download fails, but leaves an empty file, which the next run takes for the package. | C149_violated_package: C149 is violated by the cache of packages, for ever: what the first project has downloaded is used by the second one in place of the package in its own repository. | C149_violated_unreadable: C149 is violated when the index is there and cannot be read (no permission, a directory, or a file where a directory should be): on a platform without binaries the repository opens, without any package and without an error, and this is cached. | C149_violated_name: C149 is violated for directories whose name begins with `http`: they are taken for servers."
  },
  {
   "property": "C150",
   "status": "partial",
   "theorems": [
    "Pkgr.C150_name",
    "Pkgr.C150_own_partial",
    "Pkgr.C150_layout_partial",
    "Pkgr.C150_violated_same_time",
    "Pkgr.C150_violated_in_use"
   ],
   "note": "C150_own_partial: C150 (partial). When no reading of the clock is repeated, the generator draws different names and none of them is in use yet, the temporary directories made one after the other are apart from each other, and each is an empty directory, whatever the others are used for later. Missing: readings that are repeated and names in use, see the `violated` theorems. | C150_layout_partial: C150: so, when the packages of a run read different times, and the generator draws different names for these, the directories are apart as the theorems about whole runs (C90 - C94, C118) ask for. | C150_violated_same_time: C150 is violated when two readings of the clock are the same, whatever the generator: the second installation gets the directory of the first, with everything that is in it. | C150_violated_in_use: C150 is violated when a name has been in use before (pkgr never removes its directories): the user library given to R, which is meant to be empty, has the packages that are there."
  },
  {
   "property": "C151",
   "status": "proved",
   "theorems": [
    "Pkgr.C151_fields",
    "Pkgr.C151_determined",
    "Pkgr.C151_comments",
    "Pkgr.C151_error_iff",
    "Pkgr.C151_on_one_line",
    "Pkgr.C151_one_per_line",
    "Pkgr.C151_parsed"
   ],
   "note": "Full statement proved."
  },
  {
   "property": "C152",
   "status": "partial",
   "theorems": [
    "Pkgr.C152_read_back_partial",
    "Pkgr.C152_recognised_partial",
    "Pkgr.C152_again_partial",
    "Pkgr.C152_violated_mention",
    "Pkgr.C152_violated_blank_line",
    "Pkgr.C152_harmless_partial",
    "Pkgr.C152_contract_partial"
   ],
   "note": "C152_read_back_partial: C152: after an installation, reading the stamped DESCRIPTION gives what was written, and in addition pkgr's version, the type of the installation, the URL of the repository, and, if there was a field `Repository`, the repository the package came from; supposed that pkgr's fields and `Repository` take one line and that no other line mentions pkgr's fields. | C152_recognised_partial: C152: a package that pkgr has installed and stamped is found in the library by the next command, with the version of pkgr, the type of the installation and the URL that were written, and it is reported as installed by pkgr; supposed also that the other directories of the library hold the packages they are named after. | C152_again_partial: C152: stamping can be repeated: a stamped DESCRIPTION can be stamped again, by any later version of pkgr. | C152_violated_mention: C152 is false: a line of the DESCRIPTION that only mentions one of pkgr's fields is deleted, and its continuation lines become part of the field before it: after the installation the package can no longer be read, and every later command that looks at the library panics. | C152_violated_blank_line: C152 is false: when the DESCRIPTION ends with a blank line, the stamp comes after it and is never read: the package is not recognised as installed by pkgr. | C152_harmless_partial: C152: stamping does no harm: a directory whose DESCRIPTION is well written is well written after pkgr has stamped it, with the same name and the same version. | C152_contract_partial: C152: so R's contract, as the theorems about whole runs suppose it, asks nothing of the stamps but that they are plain, if what R's exit status 0 promises is a well written DESCRIPTION."
  },
  {
   "property": "C153",
   "status": "partial",
   "theorems": [
    "Pkgr.C153_loads_iff",
    "Pkgr.C153_listed_partial",
    "Pkgr.C153_repository_partial",
    "Pkgr.C153_violated_blank_lines"
   ],
   "note": "C153_listed_partial: C153: an index that can be used lists exactly its records: of the records of a name that are for this R and in the main directory, the last one, whatever the line ends and the number of blank lines between records. (What is missing: an even number of blank lines at the end of the index, see C153_violated_blank_lines.) | C153_repository_partial: C153: a repository whose source index is such a text offers, when it is opened, exactly the source packages that the index records. | C153_violated_blank_lines: C153 is false: an index, however good its records are, that ends with two blank lines, or with any even number of them, cannot be used at all."
  },
  {
   "property": "C154",
   "status": "proved",
   "theorems": [
    "Pkgr.C154_left_in_cache",
    "Pkgr.C154_from_cache",
    "Pkgr.C154_not_built_again"
   ],
   "note": "Full statement proved."
  },
  {
   "property": "C155",
   "status": "proved",
   "theorems": [
    "Pkgr.C155_bounded",
    "Pkgr.C155_rests",
    "Pkgr.C155_can_finish",
    "Pkgr.C155_completes",
    "Pkgr.C155_downloads_end",
    "Pkgr.C155_from_downloads"
   ],
   "note": "Full statement proved."
  },
  {
   "property": "C156",
   "status": "partial",
   "theorems": [
    "Pkgr.C156_one_call_partial",
    "Pkgr.C156_violated_platform"
   ],
   "note": "C156_one_call_partial: C156, when R's platform is the one the repository's binaries are made for (macOS and Windows, or a Linux whose R names its platform as expected): a package that was downloaded as a binary is installed by exactly one call of R, on the downloaded file and into the library, nothing is built, the outcome is R's, and no built binary is handed back. Missing: other platforms, see `C156_violated_platform`. | C156_violated_platform: C156 is violated on every Linux whose R names its platform differently (such as `x86_64-redhat-linux-gnu` on a CentOS, or `aarch64-unknown-linux-gnu`): pkgr does not recognise the file it has downloaded, and has R build a binary from it; R, which names what it builds as it always does, succeeds, but pkgr looks for another name. So the installation fails, whatever R does, without a call of R into the library; and as nothing but the temporary directory has changed it fails every time."
  },
  {
   "property": "C157",
   "status": "partial",
   "theorems": [
    "Pkgr.C157_same_call",
    "Pkgr.C157_same_call_tarball",
    "Pkgr.C157_project_library_partial",
    "Pkgr.C157_violated_tarball",
    "Pkgr.C157_violated_cached"
   ],
   "note": "C157_project_library_partial: C157, for packages of repositories (and libraries whose path has no equals sign or colon in it, and no blank at its end): the R that builds a package and the one that installs what was built have the project's library as their only site library, and an empty directory as the user's, whatever is inherited and whatever the configuration sets. Missing: tarballs and binaries from the cache, see `C157_violated_tarball`, `C157_violated_cached`. | C157_violated_tarball: C157 is violated for tarballs: the R that builds one has no R_LIBS_SITE, so it also finds packages in the site libraries that are R's default (as on Debian), whatever the project's library is. | C157_violated_cached: C157 is violated for binaries from the cache in the same way."
  },
  {
   "property": "C158",
   "status": "partial",
   "theorems": [
    "Pkgr.C158_absolute_partial",
    "Pkgr.C158_name_partial",
    "Pkgr.C158_violated_relative",
    "Pkgr.C158_question_partial"
   ],
   "note": "C158_absolute_partial: C158, for an R that is configured by its absolute path: every R process of every command - the question for the version, each pass of each installation, each tarball, `load` and `run` - is this file, whatever the directory it runs in. (Not on windows.) Missing: relative paths, see `C158_violated_relative`. | C158_name_partial: C158: without a configured path (the default is `R`), or with a mere name, every R process is the program of that name found in PATH. (Not on windows.) | C158_violated_relative: C158 is violated for every R that is configured by a relative path (with a slash in it): the question for the version goes to the file it denotes in the project's directory, as does a cached binary's installation, but a package is built with the file of that name in the temporary directory - where there is none - and a tarball with the one in the directory it was unpacked in. | C158_question_partial: C158: the question for the version is put to R in the project's directory with the one argument `--version`, and R is given an empty user library and no site library whatever it inherits (the libraries of the project are not yet among the settings)."
  },
  {
   "property": "C159",
   "status": "partial",
   "theorems": [
    "Pkgr.C159_from_file",
    "Pkgr.C159_anywhere",
    "Pkgr.C159_option_partial",
    "Pkgr.C159_violated_option"
   ],
   "note": "C159_option_partial: C159, partial: a library named on the command line or in PKGR_LIBRARY is the directory that its path denotes where pkgr is started, if the path is absolute or the configuration file is in the directory in which pkgr is started. Missing: relative paths and a configuration file elsewhere, see `C159_violated_option`. | C159_violated_option: C159 is violated for every relative path given on the command line or in PKGR_LIBRARY when the configuration file is not in the directory in which pkgr is started: the library is the directory of that name beside the configuration file."
  },
  {
   "property": "C160",
   "status": "partial",
   "theorems": [
    "Pkgr.C160_told_partial",
    "Pkgr.C160_violated_status"
   ],
   "note": "C160_told_partial: C160, partial: without `--json` and unless only fatal records are asked for, the user is told at the end, whatever the schedule, how many of the listed packages could not be loaded, exactly if there are any. Missing: the exit status, see `C160_violated_status`. | C160_violated_status: C160 is violated: whatever packages cannot be loaded, whatever the schedule, `load` ends with status 0; and with `--json` nothing is said about it outside the report."
  },
  {
   "property": "C161",
   "status": "partial",
   "theorems": [
    "Pkgr.C161_panics_iff",
    "Pkgr.C161_panics_written",
    "Pkgr.C161_as_scanned",
    "Pkgr.C161_found_partial",
    "Pkgr.C161_unreadable_ignored",
    "Pkgr.C161_violated"
   ],
   "note": "C161_found_partial: C161, as far as it holds: in a library of DESCRIPTIONs with valid fields none of which names a malformed dependency, finding what is installed succeeds, and finds exactly the packages that are there: what is found is in one of the directories, described as its DESCRIPTION says, and every package that is there is found. Directories without DESCRIPTION, files and packages without a name are passed over. Missing: malformed dependencies (`C161_violated`). | C161_violated: C161 is false: a package in the library that says `Depends: R (>= 3)` ends the program before anything is planned, also if the package has nothing to do with what is to be installed; with `R (>= 3.0)`, or without that package, both packages, or the other one, are found."
  },
  {
   "property": "C162",
   "status": "partial",
   "theorems": [
    "Pkgr.C162_as_planned",
    "Pkgr.C162_plan_made",
    "Pkgr.C162_library_crash",
    "Pkgr.C162_ends_partial",
    "Pkgr.C162_crash_partial",
    "Pkgr.C162_violated"
   ],
   "note": "C162_ends_partial: C162, as far as it holds: when all the files that are read are sound, planning ends with a report (a repository, a tarball or a DESCRIPTION file that cannot be read, a wrong customization, missing packages, a circular dependency), or with a plan - unless nothing is requested, or some installed package that the repositories offer has, there or in the library, a version without a separator. Missing: files that are not sound (`C162_violated`), and these two cases (C30, C148). | C162_crash_partial: C162, the same for the user: when all the files that are read are sound and planning still crashes, then nothing is requested, or some installed package that the repositories offer has, there or in the library, a version without a separator. | C162_violated: C162 is false: `R (>= 3)`, which R accepts, anywhere in the library, in the DESCRIPTION of a tarball or in a configured DESCRIPTION file crashes the planning of a project that is planned if it is `R (>= 3.0)` in all three."
  },
  {
   "property": "C163",
   "status": "partial",
   "theorems": [
    "Pkgr.C163_packages_partial",
    "Pkgr.C163_refused_partial",
    "Pkgr.C163_reported_partial",
    "Pkgr.C163_indices_partial",
    "Pkgr.C163_stops",
    "Pkgr.C163_violated"
   ],
   "note": "C163_packages_partial: C163, package files: unless `NoSecure` is in force, whenever the run ends, in whatever way the downloads are interleaved, every file in the cache that was not there before is the file of a package of the plan, and if the repository of this package is on the network, it has (a first part of) what was delivered over connections all of which, where TLS was asked for, were with parties whose certificate verifies; missing: a server that is trusted may redirect to one that needs no certificate (`C163_violated`). | C163_refused_partial: C163, package files that are refused: if the party that is met at the URL of the package asks for TLS and its certificate does not verify, there is no file of the package at any moment of the downloads, unless there was one before. | C163_reported_partial: C163, package files that are refused are reported as failures: when the downloads have returned, the package for whose URL the certificate does not verify has no entry in the table of downloaded packages, unless its file was there before. | C163_indices_partial: C163, indices: unless `NoSecure` is in force, a repository that is opened from the network lists only what indices say that were delivered, completely, over connections all of which, where TLS was asked for, were with parties whose certificate verifies; missing: as above. | C163_violated: C163 is violated by redirects: a trusted server at the https URL of a package may redirect to a URL without TLS; what anybody answers there is the package."
  },
  {
   "property": "C164",
   "status": "partial",
   "theorems": [
    "Pkgr.C164_no_certificate",
    "Pkgr.C164_nothing_else_partial",
    "Pkgr.C164_violated"
   ],
   "note": "C164_nothing_else_partial: C164, the part that holds: where there is no proxy and all certificates verify, `NoSecure` changes nothing; missing: with a proxy it does (`C164_violated`). | C164_violated: C164 is violated where the environment has a proxy: with `NoSecure` the proxy is not used. Behind a firewall that lets only the proxy through, a repository whose certificates all verify opens without `NoSecure`, and with it the program ends."
  },
  {
   "property": "C165",
   "status": "partial",
   "theorems": [
    "Pkgr.C165_history_partial",
    "Pkgr.C165_violated_package",
    "Pkgr.C165_violated_index"
   ],
   "note": "C165_history_partial: C165, the part that holds: after any number of runs without `NoSecure`, each ended at any moment, every file in the cache was there before the first, or was downloaded by one of them, over verified connections if its repository is on the network; missing: the history may have runs with `NoSecure` (`C165_violated_package`, `C165_violated_index`), and see C163. | C165_violated_package: C165 is violated: what anybody delivered for a package in a run with `NoSecure` is the package in every later run, whether or not it verifies certificates, and whatever the servers say then. | C165_violated_index: C165 is violated for indices too: what a run with `NoSecure` took for the packages of a repository, every run takes for it that finds the cache file young, whether or not it verifies certificates."
  },
  {
   "property": "C166",
   "status": "partial",
   "theorems": [
    "Pkgr.C166_own_content_partial",
    "Pkgr.C166_violated"
   ],
   "note": "C166_own_content_partial: C166, the part that holds: as long as unpacking it never failed or was interrupted, and only pkgr changed the directory of the tarball in the cache, a run that unpacks the tarball, or finds it unpacked, has exactly the files of the tarball in that directory; missing: R installs in that directory and may leave files there (`C166_violated`); for failures and interruptions see C71. | C166_violated: C166 is violated by packages for which R leaves a file in the directory that it installs from (such as an object file, of a package with compiled code): once the tarball is installed, every later run finds its directory, takes it for the tarball and installs from it, with a file that is not in the tarball."
  },
  {
   "property": "C167",
   "status": "partial",
   "theorems": [
    "Pkgr.C167_added_partial",
    "Pkgr.C167_added_section_partial",
    "Pkgr.C167_removed_exact_partial",
    "Pkgr.C167_removed_partial",
    "Pkgr.C167_violated",
    "Pkgr.C167_violated_brackets",
    "Pkgr.C167_history_partial",
    "Pkgr.C167_undone_partial"
   ],
   "note": "C167_added_partial: C167, adding: if the file has a section `Packages` with an entry, then after `add` it is read as listing first the given packages that were not listed before, then those that were, in the same order; and everything else in the configuration is read as before. Missing: an empty section (C62), packages that are given twice (C58), lists in brackets (`C167_violated_brackets`). | C167_added_section_partial: C167, adding to a file without a section `Packages`: it is read as listing the given packages, and everything else as before. | C167_removed_exact_partial: C167, removing, exactly: if nothing outside the section `Packages` begins like an entry for the package, then after `remove` the file is read as listing, in the same order, the packages whose names do not begin with the given name; and everything else is read as before. | C167_removed_partial: C167, removing: if no other listed package's name begins with the given one, and nothing else in the file begins like an entry for it, then after `remove` the file is read as listing the other packages, in the same order, and everything else is read as before. Missing: see `C167_violated`. | C167_violated: C167 is violated by names that begin alike: when `p` is removed, another package whose name begins with `p` is no longer listed either. | C167_violated_brackets: C167 is violated by lists in brackets: when a package is added to a file with such a list of packages and with another list somewhere below, the file can no longer be read at all. | C167_history_partial: C167 for histories: after any sequence of the commands `add` and `remove`, all of which are fine for what is listed by then, all have ended well, no other file has changed, and the configuration is read as listing exactly the packages that should be listed, in order, with everything else as it was read before the first of them. Missing: what `Edit.Fine` excludes (C62, C167_violated). | C167_undone_partial: C167: adding packages and removing them again leaves the configuration read as it was."
  },
  {
   "property": "C168",
   "status": "proved",
   "theorems": [
    "Pkgr.C168_same",
    "Pkgr.C168_more",
    "Pkgr.C168_fewer",
    "Pkgr.C168_library",
    "Pkgr.C168_repository",
    "Pkgr.C168_customization"
   ],
   "note": "Full statement proved."
  },
  {
   "property": "C169",
   "status": "proved",
   "theorems": [
    "Pkgr.C169_ignored",
    "Pkgr.C169_ignored_unplanned",
    "Pkgr.C169_described",
    "Pkgr.C169_described_least",
    "Pkgr.C169_described_more"
   ],
   "note": "Full statement proved."
  },
  {
   "property": "C170",
   "status": "partial",
   "theorems": [
    "Pkgr.C170_order_partial",
    "Pkgr.C170_repositories_partial",
    "Pkgr.C170_violated"
   ],
   "note": "C170_order_partial: C170: the order of the listed packages, of the ignored ones, of the customizations, of the tarballs and of the DESCRIPTION files does not matter, and but for customizations neither does it matter whether something is said twice. | C170_repositories_partial: C170, repositories: if no two repositories offer the same package, their order does not matter either. | C170_violated: C170 is violated by two customizations of one package: which comes last decides."
  },
  {
   "property": "C171",
   "status": "partial",
   "theorems": [
    "Pkgr.C171_true_partial",
    "Pkgr.C171_provided_partial",
    "Pkgr.C171_same_partial",
    "Pkgr.C171_fit_partial",
    "Pkgr.C171_violated_suffix",
    "Pkgr.C171_violated_system"
   ],
   "note": "C171_true_partial: C171, the cache: after any past without interrupted runs, every package file in the cache is the one that is published at the URL from which the package would be downloaded now. | C171_provided_partial: C171, what is provided: after any past without interrupted runs, and whichever servers can be reached now, the downloads have the file of a package for the queue exactly if it is in the cache or delivered now, and that file is the published one. Missing: interrupted runs (C46), and changes of the repository's suffix or of the system, see `C171_violated_suffix` and `C171_violated_system`. | C171_same_partial: C171, the cache changes nothing: if the servers deliver what is published, downloads of the same packages from two caches, each with any past without interrupted runs (say, a full one and an empty one), and in any two interleavings, hand the same files to the queue: the table names the same places and packages, and the contents are the same. Missing: as in `C171_provided_partial`. | C171_fit_partial: C171, for the whole run: after any past without interrupted runs the cache is fit for an installation (as supposed in C118), if the servers deliver what is published and what is published for the planned packages is those packages. | C171_violated_suffix: C171 is violated when the suffix of a repository is changed: it is part of the URL of a binary, but not of its place in the cache. After a run that downloaded the package, a run with another suffix uses that file as the package, whatever the server delivers for the other suffix; a run with an empty cache gets what the server delivers. | C171_violated_system: C171 is violated when the system is replaced by a newer one, too: a binary is for a distribution of Linux, which is part of its URL, but not of its place in the cache. The new system uses the binary for the old one."
  },
  {
   "property": "C172",
   "status": "partial",
   "theorems": [
    "Pkgr.C172_plan",
    "Pkgr.C172_install_partial"
   ],
   "note": "C172_install_partial: C172 (partial, as C136: an unambiguous configuration, the assumptions of `WellPosed` and `TarballsOK`). `pkgr install`, from the configuration and the index files to the library, when nothing goes wrong: the cache is in order and the repositories deliver, R succeeds on every package all of whose dependencies are installed, no I/O error, nobody interrupts the run. Then, whatever the order in which the repositories answer and in which downloads, workers, requester, updater and R processes take their steps, the run reports success, and every wanted package is in the library, in a version that is not older than the published one."
  },
  {
   "property": "C173",
   "status": "partial",
   "theorems": [
    "Pkgr.C173_again_partial",
    "Pkgr.C173_after_failure_partial"
   ],
   "note": "C173_again_partial: C173 (partial: as C137 and C172). A run of `pkgr install` has succeeded. The same command is given again, from the same configuration, when the repositories publish the same and nobody has touched the library in between (the database cache may have grown old or not), and again nothing goes wrong (as in C172). Then it reports success again, the library is still as the configuration says, and nothing in it was changed at any moment but the packages that are given as tarballs, their backups, and R's locks. | C173_after_failure_partial: C173 (partial: as C138 and C172). A run of `pkgr install` has failed, for whatever reason, with rollback on and without I/O errors. The same command is given again, from the same configuration, when the repositories publish the same (the database cache may have grown old or not), and this time nothing goes wrong (as in C172). Then it reports success, and the library is as the configuration says."
  },
  {
   "property": "C174",
   "status": "partial",
   "theorems": [
    "Pkgr.C174_history_partial",
    "Pkgr.C174_source",
    "Pkgr.C174_wanted",
    "Pkgr.C174_planned_partial",
    "Pkgr.C174_order_partial",
    "Pkgr.C174_installed_partial"
   ],
   "note": "C174_history_partial: C174 (partial, as C175). Runs with the first pkgr.yml, one of which succeeds; then the file is edited so that it says at least what it said before; then runs with the second one. However many there are of each and whichever of them fail, the library is at the end as the first file says (and, if a run with the second one has succeeded, as that one says, by C175). | C174_planned_partial: C174 (partial: well-posed projects and tarballs as in C136): the plan of the second project has all that the plan of the first one has, from the same repositories, in the same types and versions, whatever is installed and however old the caches are. | C174_order_partial: C174, order (partial, as above): when each of the two files says what the other one says, they lead to the same packages from the same places. | C174_installed_partial: C174 (partial, as C136): after a successful run with the second pkgr.yml, the library is also as the first one says: what it wants is there, from the same publication, as far as the repositories could supply it."
  },
  {
   "property": "C175",
   "status": "partial",
   "theorems": [
    "Pkgr.C175_lasting_partial",
    "Pkgr.C175_untouched_partial",
    "Pkgr.C175_next_partial"
   ],
   "note": "C175_lasting_partial: C175 (partial: as C136 and C138). After any number of runs of `pkgr install` with the same configuration, each of which came to its end, whether it failed or not, the library is in order; if one of them has succeeded, every wanted package is in the library in a version that is not older than the published one, and so is what was given as a tarball: the failures since then have taken nothing away. | C175_untouched_partial: C175 (partial: as C136 and C138). Whatever these runs did, what the configuration does not ask for is as it was before the first of them (R's locks and the backups of wanted packages aside), and so is every wanted package of the repositories that was there before the first of them in a version that is not older than the published one. | C175_next_partial: C175 (partial: as C172). And whatever these runs did, the next one succeeds if nothing goes wrong in it, and then the library is as the configuration says."
  }
 ]
}