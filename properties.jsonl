{"id": "C01", "title": "Version ranges are evaluated as intervals", "statement": "OSV.IsAffected says that a package version lies in an ECOSYSTEM or SEMVER range exactly when some 'introduced' event is at or below that version, with no 'fixed' event above that introduction and at or below the version, and no 'last_affected' event at or above that introduction and strictly below the version; 'introduced: 0' is below every version, and the order in which the advisory lists its events is irrelevant.", "quantifier": "every list of single-purpose events at pairwise different versions, every package version, every version order that is a total preorder, every sort routine that satisfies Go's sort.Slice contract", "why_tests_cant": "The event list has unbounded length and arbitrary order, and the version order differs per ecosystem; tests sample a few short lists.", "anchors": ["pkg/database/osv.go:AffectsRange.containsVersion", "pkg/database/osv.go:RangeEvent.version"]}
{"id": "C02", "title": "Checks do not depend on what was checked before", "statement": "Checking a package against a loaded local database gives the same vulnerabilities no matter which packages were checked earlier with the same database, although every check may reorder the advisories' events in place.", "quantifier": "every database, every finite history of earlier checks (with any mix of ecosystems), every package", "why_tests_cant": "Histories are unbounded and the hidden state is an in-place sort of shared slices; a test runs one history.", "anchors": ["pkg/database/osv.go:AffectsRange.containsVersion (sort.Slice on ar.Events)", "pkg/database/mem-check.go:memDB.Check"]}
{"id": "C03", "title": "Local database check is sound and complete", "statement": "For a package, a local database reports only loaded, non-withdrawn advisories that affect the package, and every loaded non-withdrawn advisory that affects the package is reported itself or shares an ID or alias with a reported one.", "quantifier": "every sequence of loaded advisories, every package", "why_tests_cant": "Depends on the index key agreeing with the affectedness test for all ecosystem and package names, including names that collide in the index.", "anchors": ["pkg/database/mem-check.go:memDB.addVulnerability", "pkg/database/mem-check.go:memDB.VulnerabilitiesAffectingPackage", "pkg/database/osv.go:OSV.IsAffected"]}
{"id": "C04", "title": "No duplicate vulnerabilities per package", "statement": "No two vulnerabilities reported for one package by a local database share an ID, and neither lists the other's ID or one of the other's aliases as an alias.", "quantifier": "every sequence of loaded advisories with any alias graph, every package", "why_tests_cant": "Alias graphs are arbitrary; the check is pairwise over an unbounded result.", "anchors": ["pkg/database/vulnerabilities.go:Vulnerabilities.Includes", "pkg/database/mem-check.go:memDB.VulnerabilitiesAffectingPackage"]}
{"id": "C05", "title": "The package-name filter never hides a vulnerability", "statement": "Loading a database with the list of package names being checked gives, for every one of those packages, exactly the same check result as loading the full database.", "quantifier": "every advisory set, every non-empty or empty name list, every package whose name is in the list", "why_tests_cant": "It is an equivalence of two programs over all databases; a missed normalisation would only show for particular names.", "anchors": ["pkg/database/mem-check.go:memDB.addVulnerability", "pkg/database/zip.go:mightAffectPackages"]}
{"id": "C06", "title": "Withdrawn advisories are never reported by local databases", "statement": "No vulnerability reported by a zip or dir database check is withdrawn, and a withdrawn advisory never suppresses the reporting of another advisory.", "quantifier": "every advisory set, every package", "why_tests_cant": "The second half is a non-interference property: removing withdrawn advisories from the database leaves every result unchanged.", "anchors": ["pkg/database/mem-check.go:memDB.VulnerabilitiesAffectingPackage"]}
{"id": "C07", "title": "Explicit versions and version-less packages", "statement": "An advisory entry for the package's ecosystem and name that lists the package's exact version, or any such entry with ranges or versions when the package has no version, makes IsAffected true regardless of the ranges; entries with neither ranges nor versions never match.", "quantifier": "every advisory, every package, every version order", "why_tests_cant": "Must hold whatever the ranges evaluate to.", "anchors": ["pkg/database/osv.go:OSV.IsAffected"]}
{"id": "C08", "title": "Any matching version range is enough", "statement": "If any one of the ECOSYSTEM or SEMVER ranges of a matching advisory entry contains the package version, the package is affected, whatever other ranges the entry lists and in whatever order.", "quantifier": "every list of ranges of any types, every package", "why_tests_cant": "The order and mix of range types is arbitrary.", "anchors": ["pkg/database/osv.go:Affects.affectsVersion"]}
{"id": "C09", "title": "PyPI advisory names are matched up to PEP 503 normalisation", "statement": "For PyPI advisories, the name used for matching is lower-cased with every run of '-', '_' and '.' replaced by one '-'; it is idempotent, and two advisory names get the same normalised name exactly when they are equal after PEP 503 normalisation; for every other ecosystem the name is used verbatim.", "quantifier": "every package name and ecosystem", "why_tests_cant": "Quantifies over all names; tests check three.", "anchors": ["pkg/database/osv.go:Package.NormalizedName", "pkg/database/osv.go:Package.NormalizedEcosystem"]}
{"id": "C10", "title": "Ecosystem suffixes only matter when both sides have one", "statement": "An advisory ecosystem matches a package ecosystem exactly when their parts before the first ':' are equal and, if both have a non-empty suffix, the suffixes are equal; the relation is reflexive and symmetric.", "quantifier": "every pair of ecosystem strings", "why_tests_cant": "All strings with any number of colons.", "anchors": ["pkg/database/osv.go:areEcosystemsEqual"]}
{"id": "C11", "title": "Local check results align with the packages", "statement": "A local database check returns exactly one result per given package, and the i-th result is the result of checking the i-th package alone.", "quantifier": "every package list and every database whose ranges have no two tied events (C02 covers ties); the number and position of results for every database in every state", "why_tests_cant": "Unbounded lists.", "anchors": ["pkg/database/mem-check.go:memDB.Check", "pkg/database/db.go:DB.Check"]}
{"id": "C12", "title": "Listing a database yields every advisory once", "statement": "Listing the vulnerabilities of a local database yields every ID of a loaded advisory with at least one affected package exactly once (only those with a non-withdrawn record unless withdrawn ones are included), whatever order the index is iterated in.", "quantifier": "every sequence of loaded advisories, every map iteration order", "why_tests_cant": "Go randomises map iteration.", "anchors": ["pkg/database/mem-check.go:memDB.Vulnerabilities"]}
{"id": "C13", "title": "API batching partitions the packages", "statement": "The batches sent to the API, concatenated in order, are exactly the given packages; no batch is empty, none is larger than the batch size, and all but the last are exactly the batch size.", "quantifier": "every package list, every batch size of at least 1", "why_tests_cant": "All lengths and batch sizes.", "anchors": ["pkg/database/api-check.go:batchPkgs"]}
{"id": "C14", "title": "API results align for every schedule, and any failed batch fails the check", "statement": "For every interleaving of the concurrent batch requests, an API check fails if any batch fails, and otherwise returns exactly one result per package, the i-th holding the IDs the server returned for the i-th package.", "quantifier": "every package list, batch size, server behaviour and completion order of the batch goroutines", "why_tests_cant": "Schedules cannot be enumerated by tests.", "anchors": ["pkg/database/api-check.go:APIDB.Check", "pkg/database/api-check.go:APIDB.checkBatch"]}
{"id": "C15", "title": "API results are never lost to detail failures", "statement": "For every outcome and completion order of the detail requests, an API check reports for each package exactly the IDs returned by the batch query in order; the detailed record is used exactly when one with the same ID was fetched, otherwise a bare record with that ID.", "quantifier": "every server behaviour, every completion order", "why_tests_cant": "Combination of partial failures and schedules.", "anchors": ["pkg/database/api-check.go:APIDB.Check", "pkg/database/api-check.go:findOrDefault", "pkg/database/api-fetch-all.go:APIDB.FetchAll"]}
{"id": "C16", "title": "API query payload", "statement": "A package with name, ecosystem and version is queried by exactly these; otherwise a package with a commit is queried by exactly the commit; otherwise the query is empty; the batch query has one entry per package in order.", "quantifier": "every package", "why_tests_cant": "All combinations of empty and non-empty fields.", "anchors": ["pkg/database/api-check.go:APIDB.buildAPIPayload"]}
{"id": "C17", "title": "Database loading dispatch and guards", "statement": "An API database is refused when offline or with a batch size below 1; unsupported types are refused; the database loaded for a config carries exactly that config's name and identifier.", "quantifier": "every config, flag and batch size", "why_tests_cant": "All inputs of the guard.", "anchors": ["pkg/database/api.go:NewAPIDB", "pkg/database/config.go:Load"]}
{"id": "C18", "title": "The zip cache returns only what was downloaded", "statement": "After any history of runs, an offline load or a 304 response to a conditional request yields exactly the archive body stored by the most recent successful download with an ETag or Date whose cache write completed (or the initially present cache), together with that download's date, and the conditional headers sent are those stored with that body.", "quantifier": "every history of runs, every server behaviour, every write outcome", "why_tests_cant": "History property of on-disk state.", "anchors": ["pkg/database/zip.go:ZipDB.fetchZip", "pkg/database/zip.go:Cache"]}
{"id": "C19", "title": "A crash while writing the zip cache never corrupts later results", "statement": "If the process crashes at any point while writing the cache, later runs either see the complete new cache or no usable cache (online: a full download; offline: an error), never a partial archive.", "quantifier": "every crash point (every prefix of the file being written), every later run", "why_tests_cant": "Crash points.", "anchors": ["pkg/database/zip.go:ZipDB.fetchZip"]}
{"id": "C20", "title": "Zip archives load exactly the JSON files under the working directory", "statement": "The advisories loaded from an archive are exactly the entries that are inside the configured working directory, end in .json, can be read and parse, each once and in archive order; an unreadable or malformed file drops only itself.", "quantifier": "every archive, working directory and name filter", "why_tests_cant": "All archives and names.", "anchors": ["pkg/database/zip.go:ZipDB.load", "pkg/database/zip.go:ZipDB.loadZipFile"]}
{"id": "C21", "title": "Directory databases load every readable advisory", "statement": "Walking a directory database loads exactly the .json files that can be read and parsed, in walk order; any other file, unreadable file or malformed file only drops itself, and only an unreadable root makes the load fail.", "quantifier": "every directory tree and every failure pattern", "why_tests_cant": "Failure combinations.", "anchors": ["pkg/database/dir.go:DirDB.load"]}
{"id": "C22", "title": "Exit code 0 means nothing wrong", "statement": "The detector exits with 0 only if every path, config, lockfile and database was processed without an error being printed and no non-ignored vulnerability was found.", "quantifier": "every command line and every behaviour of the file system, parsers and databases", "why_tests_cant": "The exit code is computed along several early returns, overwrites and flags.", "anchors": ["main.go:run", "internal/reporter/reporter.go:Reporter.PrintErrorf"]}
{"id": "C23", "title": "Exit code classification", "statement": "Once lockfiles were found and any explicit config loaded, the exit code is 127 if a database failed to load or a lockfile or its config failed to be read; otherwise 1 if a non-ignored vulnerability was found; otherwise 127 if any other error was printed; otherwise 0. It is 128 exactly when paths were given, all of them could be opened and nothing that can be parsed was found; there are no other codes.", "quantifier": "every list of lockfiles in every order with every outcome", "why_tests_cant": "Order of lockfiles and mixes of failures.", "anchors": ["main.go:run"]}
{"id": "C24", "title": "JSON mode keeps stdout machine readable", "statement": "With --json, stdout receives exactly one JSON document holding one result per successfully read lockfile in order, on every path through the program; without --json errors never go to stdout.", "quantifier": "every command line and every behaviour of the environment", "why_tests_cant": "Every path, including early exits.", "anchors": ["internal/reporter/reporter.go:Reporter", "main.go:run"]}
{"id": "C25", "title": "Merging results of several databases", "statement": "For each package the reported and ignored vulnerabilities together contain no two that share an ID or alias, contain only vulnerabilities returned by some database for that package, and cover every returned vulnerability (itself or one sharing an ID or alias).", "quantifier": "every number of databases, every result lists, every ignore list", "why_tests_cant": "Unbounded lists and arbitrary alias graphs.", "anchors": ["main.go:OSVDatabases.transposePkgResults"]}
{"id": "C26", "title": "Ignores split results exactly by ID and are monotone", "statement": "A merged vulnerability is listed as ignored exactly when its ID is in the ignore list; which vulnerabilities are merged does not depend on the ignores, so adding ignores never adds a reported vulnerability and never turns a passing run into a failing one.", "quantifier": "every ignore list and its extensions, every result", "why_tests_cant": "Relates two runs (a hyperproperty).", "anchors": ["main.go:OSVDatabases.transposePkgResults", "main.go:run"]}
{"id": "C27", "title": "A failing database does not lose the results of others", "statement": "If some databases fail while checking, the report still contains, for every package, what the remaining databases returned, exactly as if the failing ones were not configured, and an error is printed.", "quantifier": "every subset and position of failing databases", "why_tests_cant": "All failure patterns.", "anchors": ["main.go:OSVDatabases.check"]}
{"id": "C28", "title": "Updating config ignores converges", "statement": "With --update-config-ignores, each used config's ignore list becomes the sorted set of IDs of every vulnerability found (ignored or not) for the lockfiles using it; re-running on the same inputs then reports no vulnerability for those lockfiles and rewriting again changes nothing.", "quantifier": "every set of lockfiles, configs, database results, existing ignores, and map iteration order", "why_tests_cant": "Relates two successive runs and the alias-based merging.", "anchors": ["main.go:run", "main.go:writeUpdatedConfigs", "internal/configer/update.go:UpdateWithIgnores"]}
{"id": "C29", "title": "Updating a config preserves everything but the ignores, even across a crash", "statement": "Updating the ignores of a config leaves its extra databases unchanged, and a crash at any point of the update leaves either the old or the new config.", "quantifier": "every config content, every crash point", "why_tests_cant": "Crash points.", "anchors": ["internal/configer/update.go:UpdateWithIgnores"]}
{"id": "C30", "title": "Databases are de-duplicated by identifier", "statement": "The databases loaded in a run are the configured ones with later duplicates of the same identifier removed, in first-occurrence order; each lockfile is checked with each of its databases exactly once.", "quantifier": "every list of configs", "why_tests_cant": "Unbounded lists.", "anchors": ["main.go:uniqueDBConfigs", "main.go:OSVDatabases.forConfigs", "main.go:loadDatabases"]}
{"id": "C31", "title": "Database identifiers distinguish different databases", "statement": "Two database configs have the same identifier only if they agree on type, URL and working directory.", "quantifier": "every pair of configs", "why_tests_cant": "All strings.", "anchors": ["pkg/database/config.go:Config.Identifier"]}
{"id": "C32", "title": "Every lockfile is checked with its own databases", "statement": "Each successfully read lockfile is checked with its config's extra databases (unless --no-config-databases), the API if enabled, and the ecosystem database of each of its packages' ecosystems if enabled, whatever other lockfiles are passed.", "quantifier": "every combination of flags and every list of lockfiles", "why_tests_cant": "Depends on sharing of config pointers between lockfiles; needs all combinations.", "anchors": ["main.go:lockfileAndConfigOrErrs.adjustExtraDatabases", "main.go:readAllLockfiles"]}
{"id": "C33", "title": "Parse-as prefixes survive path discovery", "statement": "A path given as '<parser>:<path>' is discovered and later parsed with exactly that parser and that (cleaned) path, including when the path itself contains colons; an empty prefix (a leading ':') falls back to the --parse-as flag and, without one, to the file name.", "quantifier": "every path and prefix", "why_tests_cant": "All strings with any number of colons.", "anchors": ["main.go:parseLockfilePathWithParseAs", "main.go:findAllLockfiles", "main.go:parseLockfile"]}
{"id": "C34", "title": "Directory discovery", "statement": "For a directory, exactly the non-directory entries with a known parser (all entries when parsing as csv-file) are checked, in sorted order; subdirectories are never entered. Exactly the paths that cannot be opened are complained about.", "quantifier": "every directory listing in every order", "why_tests_cant": "All listings.", "anchors": ["main.go:findLockfiles", "pkg/lockfile/parse.go:FindParser"]}
{"id": "C35", "title": "Config discovery precedence and errors", "statement": "The local config is .osv-detector.yml if it exists, else .osv-detector.yaml, else empty; a config that exists but cannot be read or parsed makes that lockfile fail instead of being silently skipped.", "quantifier": "every file system state", "why_tests_cant": "Combinations of missing, unreadable and malformed files.", "anchors": ["internal/configer/load.go:Find", "internal/configer/load.go:Load", "main.go:readAllLockfiles"]}
{"id": "C36", "title": "Extra database configs", "statement": "The type of an extra database is the explicit type, else dir for file:/ URLs, else zip for .zip URLs, else api; entries with a bad URL or unsupported type are dropped with an error while all others are kept in order; a missing name defaults to the identifier.", "quantifier": "every config", "why_tests_cant": "All strings and lists.", "anchors": ["internal/configer/load.go:rawDatabaseConfig.inferDBType", "internal/configer/load.go:rawDatabaseConfig.toConfig", "internal/configer/load.go:newConfig"]}
{"id": "C37", "title": "CSV records", "statement": "A CSV record with at least four fields becomes a package with exactly these fields, defaulting the comparison ecosystem to the ecosystem, and treating the fourth field as a commit exactly when the ecosystem is empty; any other record is an error that names its row, and an error in any row makes the whole input fail.", "quantifier": "every list of records", "why_tests_cant": "All field combinations and row counts.", "anchors": ["pkg/lockfile/csv.go:fromCSVRecord", "pkg/lockfile/csv.go:fromCSV"]}
{"id": "C38", "title": "Parsed packages are sorted and nothing is lost", "statement": "The packages of a parsed lockfile are ordered by name and then version and are a permutation of what the format parser returned; equal inputs give equal outputs whenever no two packages share name and version.", "quantifier": "every parser output, every sort routine satisfying Go's contract", "why_tests_cant": "All lists and orders.", "anchors": ["pkg/lockfile/parse.go:Parse", "pkg/lockfile/csv.go:fromCSV"]}
{"id": "C39", "title": "Parsing does not depend on map iteration order", "statement": "For every map-based lockfile format (package-lock.json, packages.lock.json, Pipfile.lock, pubspec.lock, renv.lock, pnpm-lock.yaml, bun.lock, go.mod, pom.xml) the set of parsed packages is the same for every iteration order of the decoded maps.", "quantifier": "every lockfile and every pair of iteration orders", "why_tests_cant": "Go randomises map iteration.", "anchors": ["pkg/lockfile/parse-npm-lock.go", "pkg/lockfile/parse-nuget-lock.go", "pkg/lockfile/parse-go-lock.go", "pkg/lockfile/parse-pipenv-lock.go"]}
{"id": "C40", "title": "requirements.txt includes terminate", "statement": "Parsing a requirements.txt terminates for every include graph, including cycles and self-includes.", "quantifier": "every finite file system and every include graph", "why_tests_cant": "Termination over all graphs.", "anchors": ["pkg/lockfile/parse-requirements-txt.go:parseRequirementsTxt"]}
{"id": "C41", "title": "requirements.txt includes are complete", "statement": "When parsing succeeds, the packages are exactly those of the requirement lines of the file and of every file reachable through -r lines; parsing fails if a reachable file cannot be read.", "quantifier": "every finite file system and every include graph", "why_tests_cant": "Graph reachability.", "anchors": ["pkg/lockfile/parse-requirements-txt.go:parseRequirementsTxt"]}
{"id": "C42", "title": "requirements.txt lines", "statement": "A requirement line pinned with ==, >= or ~= yields the normalised name before the operator (without extras) and the version after it; !=, or no operator, yields version 0.0.0; the resulting name is always in normal form so that it can match a PyPI advisory.", "quantifier": "every line", "why_tests_cant": "All lines.", "anchors": ["pkg/lockfile/parse-requirements-txt.go:parseLine", "pkg/lockfile/parse-requirements-txt.go:normalizedRequirementName"]}
{"id": "C43", "title": "requirements.txt line continuations and comments", "statement": "A line is continued exactly when it ends in an odd number of backslashes; joining always terminates, also at the end of the file; a comment is removed exactly from the first '#' that starts the line or follows whitespace.", "quantifier": "every line sequence", "why_tests_cant": "All lines.", "anchors": ["pkg/lockfile/parse-requirements-txt.go:isLineContinuation", "pkg/lockfile/parse-requirements-txt.go:removeComments"]}
{"id": "C44", "title": "yarn.lock blocks", "statement": "Every block of a yarn.lock (an unindented line and its indented lines) yields exactly one package in order, except the metadata and root workspace blocks; comments and blank lines are ignored.", "quantifier": "every sequence of lines", "why_tests_cant": "All files.", "anchors": ["pkg/lockfile/parse-yarn-lock.go:groupPackageLines", "pkg/lockfile/parse-yarn-lock.go:ParseYarnLock"]}
{"id": "C45", "title": "yarn.lock package names", "statement": "The name of a block headed by name@range is that name, including a scope, for quoted, unquoted and multi-range headers, and the aliased name for name@npm:other@range.", "quantifier": "every name, range and alias depth", "why_tests_cant": "All strings.", "anchors": ["pkg/lockfile/parse-yarn-lock.go:extractYarnPackageName"]}
{"id": "C46", "title": "package-lock.json v1 nested dependencies", "statement": "Every dependency at every nesting depth of a package-lock.json v1 is reported and nothing else; file: dependencies have no version, git dependencies have the commit and no version, npm: aliases are reported under the aliased name and version.", "quantifier": "every dependency tree", "why_tests_cant": "Unbounded depth.", "anchors": ["pkg/lockfile/parse-npm-lock.go:parseNpmLockDependencies"]}
{"id": "C47", "title": "package-lock.json v2 packages", "statement": "Every non-root entry of the packages map is reported under its name, or else the last path segment(s) including a scope, with its version and commit; the root entry never is.", "quantifier": "every packages map", "why_tests_cant": "All maps and paths.", "anchors": ["pkg/lockfile/parse-npm-lock.go:parseNpmLockPackages", "pkg/lockfile/parse-npm-lock.go:extractNpmPackageName"]}
{"id": "C48", "title": "go.mod replacements", "statement": "A required module replaced by a directive is reported as the replacement (once, not chained), versioned replacements apply only to that version, and replacements of modules that are not required have no effect.", "quantifier": "every list of requires and replaces", "why_tests_cant": "All combinations and orders.", "anchors": ["pkg/lockfile/parse-go-lock.go:ParseGoLock"]}
{"id": "C49", "title": "pom.xml versions", "statement": "Every dependency and managed dependency is reported exactly once per group:artifact, direct dependencies winning over managed ones and later over earlier; the version is the lower bound of the requirement, or 0, with ${property} resolved.", "quantifier": "every pom", "why_tests_cant": "All poms.", "anchors": ["pkg/lockfile/parse-maven-lock.go"]}
{"id": "C50", "title": "Gemfile.lock specs", "statement": "Every gem listed at spec level of a GEM, GIT, PATH or PLUGIN SOURCE section is reported once with its version without platform and, for git sources, the commit of that section; dependencies of gems and other sections are not reported.", "quantifier": "every Gemfile.lock in the format Bundler writes", "why_tests_cant": "All files; line state machine.", "anchors": ["pkg/lockfile/parse-gemfile-lock.go"]}
{"id": "C51", "title": "mix.lock entries", "statement": "Every hex or git entry of a mix.lock yields one package with the name, the version (hex) or the commit (git).", "quantifier": "every mix.lock in the format mix writes", "why_tests_cant": "All files.", "anchors": ["pkg/lockfile/parse-mix-lock.go:ParseMixLock"]}
{"id": "C52", "title": "gradle lockfile entries", "statement": "Every group:artifact:version=configurations line yields group:artifact at version; comments and the empty= line are skipped; malformed lines are skipped without affecting others.", "quantifier": "every sequence of lines", "why_tests_cant": "All files.", "anchors": ["pkg/lockfile/parse-gradle-lock.go"]}
{"id": "C53", "title": "pnpm dependency paths", "statement": "For v5/v6 dependency paths and v9 name@version keys the extracted name (with scope) and version (without peer suffix) are those written; explicit name and version fields win; entries without both are skipped.", "quantifier": "every name, version and path form", "why_tests_cant": "All strings.", "anchors": ["pkg/lockfile/parse-pnpm-lock.go:extractPnpmPackageNameAndVersion", "pkg/lockfile/parse-pnpm-lock.go:parsePnpmLock"]}
{"id": "C54", "title": "bun.lock tuples", "statement": "A tuple headed name@version yields that name (with scope) and version, name@source#commit yields the commit and no version, file: sources have no version; tuples without a leading string are skipped.", "quantifier": "every tuple", "why_tests_cant": "All strings.", "anchors": ["pkg/lockfile/parse-bun-lock.go"]}
{"id": "C55", "title": "Commit extraction from resolutions", "statement": "For git, ssh, git+ssh, git+https, https .git, codeload and github:/gitlab:/bitbucket: resolutions ending in a commit, that commit is extracted; a registry tarball URL never yields a commit.", "quantifier": "every resolution string", "why_tests_cant": "Five regular expressions over all strings.", "anchors": ["pkg/lockfile/parse-yarn-lock.go:tryExtractCommit"]}
{"id": "C56", "title": "Parsers do not crash on readable input", "statement": "No content of a lockfile that decodes as its format makes the detector panic.", "quantifier": "every decoded lockfile content", "why_tests_cant": "All inputs.", "anchors": ["pkg/lockfile/parse-npm-lock.go", "pkg/lockfile/parse-pipenv-lock.go", "pkg/lockfile/parse-bun-lock.go", "pkg/lockfile/parse-pnpm-lock.go"]}
{"id": "C57", "title": "One-to-one formats lose nothing", "statement": "For Cargo.lock, poetry.lock, pdm.lock, composer.lock, uv.lock, pylock.toml, pubspec.lock and renv.lock every listed package (except the documented root or foreign-repository entries) is reported once with its name, version and commit, in order.", "quantifier": "every decoded lockfile", "why_tests_cant": "All lists.", "anchors": ["pkg/lockfile/parse-cargo-lock.go", "pkg/lockfile/parse-poetry-lock.go", "pkg/lockfile/parse-composer-lock.go", "pkg/lockfile/parse-uv-lock.go"]}
{"id": "C58", "title": "Advisory descriptions are bounded", "statement": "The description shown for an advisory is its summary if present; otherwise its details cut to at most 80 characters plus an ellipsis, at a word boundary when there is one, never in the middle of a character and never crashing.", "quantifier": "every details string", "why_tests_cant": "All Unicode strings.", "anchors": ["pkg/database/osv.go:truncate", "pkg/database/osv.go:OSV.Describe"]}
{"id": "C59", "title": "Report summary counts", "statement": "A report says that vulnerabilities are known exactly when some package lists one; the numbers shown equal the number of listed and ignored vulnerabilities; the text lists exactly the packages with at least one non-ignored vulnerability.", "quantifier": "every report", "why_tests_cant": "All reports.", "anchors": ["internal/reporter/report.go:Report"]}
{"id": "C60", "title": "Ecosystem databases follow the packages", "statement": "The ecosystems of a lockfile are exactly the non-empty ecosystems of its packages, each once, sorted, independent of map iteration order.", "quantifier": "every package list, every iteration order", "why_tests_cant": "Go randomises map iteration.", "anchors": ["pkg/lockfile/parse.go:Packages.Ecosystems", "main.go:collectEcosystems"]}
{"id": "C61", "title": "Listing packages never touches databases or configs", "statement": "With --list-packages no config is read, no database is loaded or queried, and the exit code only reflects path and lockfile errors.", "quantifier": "every command line and environment", "why_tests_cant": "Every path.", "anchors": ["main.go:run", "main.go:loadDatabases"]}
{"id": "C63", "title": "Loading an archive never crashes", "statement": "Fetching a zip database yields the archive or an error, never a crash, whatever the cache file contains and whatever the server answers.", "quantifier": "every content of the cache file, every history of runs, every server response", "why_tests_cant": "Needs a server that breaks the protocol.", "anchors": ["pkg/database/zip.go:ZipDB.fetchZip"]}
{"id": "C64", "title": "packages.lock.json dependencies of all frameworks", "statement": "From a version 1 packages.lock.json every dependency of every framework is reported exactly once per name and resolved version, and nothing else; files of another version are errors.", "quantifier": "every packages.lock.json, every map iteration order", "why_tests_cant": "Frameworks and dependencies combine without bound and Go randomises map iteration.", "anchors": ["pkg/lockfile/parse-nuget-lock.go:ParseNuGetLock", "pkg/lockfile/parse-nuget-lock.go:parseNuGetLockDependencies"]}
{"id": "C65", "title": "Pipfile.lock versions", "statement": "From a Pipfile.lock exactly the packages of default and develop that have a version behind == are reported, once each, with that version; entries without a version are skipped and no file makes the parser panic.", "quantifier": "every Pipfile.lock, every map iteration order", "why_tests_cant": "Versions of every length and sections of every size.", "anchors": ["pkg/lockfile/parse-pipenv-lock.go:ParsePipenvLock"]}
{"id": "C62", "title": "Checking against a local database never crashes", "statement": "Checking any list of packages against a zip or directory database returns results; it does not crash, whatever versions and ecosystems the packages and the advisories contain.", "quantifier": "every load sequence of advisories, every list of packages, every history of checks, every set of versions the comparison library accepts, every sort routine", "why_tests_cant": "Versions come from untrusted advisories and ecosystems from users; which pairs get compared depends on the data and on the sort.", "anchors": ["pkg/database/osv.go:AffectsRange.containsVersion", "pkg/database/osv.go:OSV.IsAffected", "pkg/database/mem-check.go:memDB.Check"]}
{"id": "C66", "title": "Exit code 0 means that no package is affected", "statement": "If a run ends with exit code 0, then for every lockfile and package, no advisory in a database required for the lockfile affects the package, unless it or another advisory for the same vulnerability is ignored for this lockfile. Conversely every reported vulnerability is an advisory of a required database that is not withdrawn and affects the package.", "quantifier": "every set of arguments, every content of lockfiles, configs and databases, every history of checks, every order of map iteration and every sort routine", "why_tests_cant": "The property is about the composition of discovery, parsing, loading, filtering, matching, merging and ignoring; each has unbounded inputs.", "anchors": ["main.go:run", "main.go:OSVDatabases.check", "pkg/database/mem-check.go:memDB.Check", "pkg/lockfile/parse.go:Parse"]}
{"id": "C67", "title": "Packages carry the ecosystem of their lockfile", "statement": "Every package returned by a parser has exactly the ecosystem of the lockfile format, both for looking up advisories and for comparing versions, whatever the file contains; the formats are exactly those with a parser.", "quantifier": "every content of every kind of lockfile, every map iteration order", "why_tests_cant": "Each parser builds packages on several paths; an odd path with another ecosystem would silently skip advisories.", "anchors": ["pkg/lockfile/parse.go:parsers", "pkg/lockfile/parse.go:Parse"]}
{"id": "C68", "title": "Ignores and databases come from the config that applies to the lockfile", "statement": "A vulnerability is listed as ignored for a lockfile exactly if its ID is ignored on the command line or by the config file that applies to this lockfile: the explicit one, else .osv-detector.yml, else .osv-detector.yaml next to it. The databases taken from configs are those of the same file. Configs of other lockfiles have no influence.", "quantifier": "every set of lockfiles and config files, every combination of flags", "why_tests_cant": "Configs are shared by pointer between lockfiles; leaks show only for particular combinations of several lockfiles and configs.", "anchors": ["main.go:readAllLockfiles", "main.go:run", "internal/configer/load.go:Find"]}
{"id": "C69", "title": "The JSON output can be read back", "statement": "With --json, what is printed on stdout is exactly one JSON document, and reading it gives the reports that were made: every file, package, advisory and ignored advisory, with all texts unchanged; with --list-packages it gives every package of every file.", "quantifier": "every run: all lockfiles, configs, databases and flags, all texts in them", "why_tests_cant": "Names, versions and advisory texts are arbitrary strings that have to survive escaping.", "anchors": ["internal/reporter/reporter.go:Reporter.PrintResult", "internal/reporter/reporter.go:Reporter.PrintJSONResults", "pkg/database/osv.go:Versions.MarshalJSON"]}
{"id": "C70", "title": "Advisories are read as written", "statement": "A JSON text is read as an advisory exactly if it describes this advisory: every field has the value of the member with its name, unknown members have no influence and a value of a wrong type makes the advisory unreadable. An advisory that is written as JSON is read back unchanged.", "quantifier": "every JSON text, every advisory, every archive and directory", "why_tests_cant": "Advisories are nested lists of any size with unknown members.", "anchors": ["pkg/database/osv.go:OSV", "pkg/database/zip.go:ZipDB.loadZipFile", "pkg/database/dir.go:DirDB.load"]}
{"id": "C71", "title": "Requests to the API and its responses", "statement": "The request for a batch is a JSON document from which a server reads exactly one query per package, in order. A successful batch gives exactly the IDs in the response, and the response is complete. The endpoints are querybatch and vulns/ID below the path of the base URL.", "quantifier": "every batch of packages, every response, every base URL path, every ID that is a path component", "why_tests_cant": "Package names are arbitrary texts, and responses may contain any members in any order.", "anchors": ["pkg/database/api-check.go:APIDB.checkBatch", "pkg/database/api-check.go:APIDB.bulkEndpoint", "pkg/database/api-fetch.go:APIDB.osvEndpoint"]}
{"id": "C72", "title": "Command line", "statement": "Arguments are accepted exactly if they are valid options followed by paths, and the flags of the run are what these options mean: the last option of each name counts and ignored IDs are collected. Arguments that are not accepted start no run. If the command exits with 0, everything after the options exists as a file or directory, so that an option after a path does not go unnoticed.", "quantifier": "every list of arguments", "why_tests_cant": "There are 15 options with several spellings each, in any order and number.", "anchors": ["main.go:run", "main.go:main", "main.go:stringsFlag.Set"]}
{"id": "C73", "title": "CSV text is read as written", "statement": "A CSV text is accepted exactly if it is how records of packages are written (RFC 4180), all with the same number of fields, and then the packages are exactly those of the records. With one record per argument, every argument gives one record. Line ends make no difference.", "quantifier": "every text, every list of records, every list of arguments that are records", "why_tests_cant": "Fields can contain commas, quotes and line breaks, which interact with the separation into records.", "anchors": ["pkg/lockfile/csv.go:fromCSV", "pkg/lockfile/csv.go:FromCSVRows", "pkg/lockfile/csv.go:FromCSVFile"]}
{"id": "C74", "title": "pom.xml as text", "statement": "The text of an XML document is read as a pom exactly if its element is project. Dependencies are exactly the elements at project/dependencies/dependency and project/dependencyManagement/dependencies/dependency, with the text of their groupId, artifactId and version; properties are the elements in properties. Comments, attributes, name spaces, CDATA and elements elsewhere have no influence. Every dependency is reported under its name and nothing else is.", "quantifier": "every document that is written according to the grammar of XML (ASCII names, no document type), every order of map iteration", "why_tests_cant": "XML has unbounded nesting and many ways to write the same text.", "anchors": ["pkg/lockfile/parse-maven-lock.go:ParseMavenLock", "pkg/lockfile/parse-maven-lock.go:MavenLockProperties.UnmarshalXML", "pkg/lockfile/parse-maven-lock.go:MavenLockFile"]}
{"id": "C75", "title": "YAML files say what is read of them", "statement": "pnpm-lock.yaml, pubspec.lock and the config are refused exactly if the document does not have the shape: mappings with different scalar keys, texts, lists. Otherwise every value read is the one at its place in the document, missing and null values are empty, null items of lists are left out, and nothing else in the document has an influence. No document makes the pubspec parser panic.", "quantifier": "every tree of YAML nodes, every order of map iteration", "why_tests_cant": "Documents nest without bound, and every combination of shapes at every place matters.", "anchors": ["pkg/lockfile/parse-pnpm-lock.go:PnpmLockfile.UnmarshalYAML", "pkg/lockfile/parse-pubspec-lock.go:PubspecLockDescription.UnmarshalYAML", "pkg/lockfile/parse-pubspec-lock.go:ParsePubspecLock", "internal/configer/load.go:load"]}
{"id": "C76", "title": "TOML files say what is read of them", "statement": "Cargo.lock, poetry.lock, pdm.lock, uv.lock and pylock.toml are refused exactly if a value that belongs to a field has another type than the field. Otherwise the packages reported are the tables of the package list in order, each with the texts at name, version and the place of its commit, missing texts being empty, except for the root packages of uv.lock and pylock.toml; nothing else in the document has an influence.", "quantifier": "every tree of TOML values; for what is read, every tree in which no table has two keys that differ in upper and lower case only", "why_tests_cant": "Documents nest without bound, and every combination of types at every place matters.", "anchors": ["pkg/lockfile/parse-cargo-lock.go:ParseCargoLock", "pkg/lockfile/parse-poetry-lock.go:ParsePoetryLock", "pkg/lockfile/parse-pdm-lock.go:ParsePdmLock", "pkg/lockfile/parse-uv-lock.go:ParseUvLock", "pkg/lockfile/parse-pylock.go:ParsePylock"]}
{"id": "C77", "title": "JSON texts, with and without comments", "statement": "A text is read as a JSON value exactly if it is a text of that value by RFC 8259, so what is no JSON text is an error in every JSON lockfile, and white space and escapes have no influence on the packages. A bun.lock may also contain comments and a comma behind the last element or member: it is read as the value it is a text of, they have no influence on packages, errors and panics, and a JSON text is not changed by the conversion.", "quantifier": "every text and every JSON value, without a bound on nesting", "why_tests_cant": "Comments, quotes, escapes and brackets can be nested in each other's text in any way.", "anchors": ["pkg/lockfile/parse-bun-lock.go:ParseBunLock", "pkg/lockfile/parse-composer-lock.go:ParseComposerLock", "pkg/lockfile/parse-npm-lock.go:ParseNpmLock"]}
{"id": "C78", "title": "Every name in the table of parsers stands for its format", "statement": "What the table of parsers returns for a name and a path are the packages that the text of the file says in the format of the name, through the decoder of that format: 5 names are TOML, 5 JSON, 1 JSON with comments, 2 YAML, 1 XML, 1 go.mod and the others are read by lines, requirements.txt with the files it includes. A text that is not of the language of the format, or a value that does not have its shape, is an error, and so is a file that cannot be read, under every name.", "quantifier": "every file system, every path, every text within the conditions of the property of the format (C41, C44, C46-C48, C50-C54, C57, C64, C65, C74-C77), every order of map iteration", "why_tests_cant": "Tests check each parser by itself; a swapped decoder or name shows only when the table is followed for every format and every text.", "anchors": ["pkg/lockfile/parse.go:Parse", "pkg/lockfile/parse.go:parsers", "pkg/lockfile/parse.go:FindParser"]}
{"id": "C79", "title": "Concurrent use of the cache of patterns is safe", "statement": "Any number of goroutines may ask for compiled patterns at the same time. Each that returns has an object compiled from its own pattern, goroutines with the same pattern get the same object and those with different patterns different ones, entries of the cache and objects never change, a goroutine panics exactly if its pattern does not compile, none waits for another one, and every execution ends within three steps per goroutine.", "quantifier": "every number of goroutines, every list of patterns, every interleaving of the steps", "why_tests_cant": "Which goroutine misses, compiles or stores first depends on the scheduler, and races between them are too rare to be met by tests.", "anchors": ["internal/cachedregexp/regex.go:MustCompile"]}
{"id": "C80", "title": "The text of the output", "statement": "Without --json the text on stdout is, in order: the databases that were loaded with what is said about each (unless packages are listed), one part per file in order of discovery with the line about its packages, the line about its config, one line per database it is checked with and the report, separated by line ends, and one sorted line per updated config; a run that stops early writes nothing to stdout, and --version and --list-ecosystems exactly what they are asked for. Stderr stays empty exactly if there is no error and no diagnostic. With --json stdout is the document alone. The number of advisories a database is described with is the number that it was loaded from, whatever is filtered out.", "quantifier": "all flags, all environments, all colourings, all databases and configs", "why_tests_cant": "Snapshot tests fix the output of a few runs; which lines appear, in which order and on which stream depends on every combination of flags, failures and configs.", "anchors": ["main.go:run", "main.go:describeDB", "main.go:loadDatabases", "main.go:writeUpdatedConfigs", "internal/reporter/reporter.go:Reporter.PrintDatabaseLoadErr", "internal/reporter/reporter.go:Reporter.PrintKnownEcosystems"]}
{"id": "C81", "title": "What an API server lists reaches the report", "statement": "If a run ends with exit code 0, then for each lockfile that must be checked with an API database (from its config or by --use-api) the server has answered every batch, and each vulnerability it listed for a package is ignored, itself or as another one with which it shares an ID or alias. For any exit code, if the server answers then everything it listed for a package is in the report of the lockfile at that package, with the details from the server if it gave any; and whatever an API database contributes to the report of a package was listed by the server for that package.", "quantifier": "every server behaviour, every interleaving of the goroutines of batches and of details, every batch size, all lockfiles, configs and flags", "why_tests_cant": "Batch boundaries, positions in answers, failures of single requests, duplicates among databases and the scheduler combine without bound.", "anchors": ["main.go:run", "main.go:adjustExtraDatabases", "pkg/database/api-check.go:APIDB.Check", "pkg/database/api-check.go:APIDB.checkBatch", "pkg/database/api-check.go:batchPkgs", "pkg/database/api-fetch-all.go:APIDB.FetchAll"]}
{"id": "C82", "title": "Online runs use the archive that the server has now", "statement": "An archive that is loaded without --offline is the one the server has at that time, whatever was cached before; every loaded archive, also offline or after an answer that nothing was modified, was sent completely by the server for this URL at some time. So if a run with the default databases ends with exit code 0, each discovered lockfile was parsed and each advisory in the archive that the server has now for the ecosystem of a package, and that affects the package, is ignored, itself or through related advisories.", "quantifier": "every history of loads of any URLs through the same cache directory, with failed requests, failed and torn writes and unreadable files; every lockfile; every server that says that nothing was modified only if it has not modified the archive it sent with the ETag and date in question", "why_tests_cant": "A stale cache only shows after a particular sequence of runs, failures and changes on the server.", "anchors": ["pkg/database/zip.go:ZipDB.fetchZip", "pkg/database/zip.go:ZipDB.load", "main.go:run"]}
{"id": "C83", "title": "A crash is visible, and only three things cause one", "statement": "The command crashes exactly if it gets past its arguments and a step panics; the process then ends with code 2, has printed what a run without panics prints first (with --json a document with the results so far), and has changed no config file. If it does not crash, it does what the model without panics says, so code 0 keeps its meaning. With the models of parsers, databases, cache and API, the only causes are a parser that panics, which only those of seven formats can, an answer 304 to an unconditional request, and versions that cannot be compared; merging answers never panics.", "quantifier": "all flags, environments, lockfile texts, servers, caches, advisories, earlier checks and schedules of API requests", "why_tests_cant": "Where a panic happens decides what was printed and written before; tests do not combine panics in every place with every configuration.", "anchors": ["main.go:run", "main.go:main", "main.go:parseLockfile", "main.go:readAllLockfiles", "main.go:loadDatabases", "main.go:OSVDatabases.check", "main.go:OSVDatabases.transposePkgResults", "pkg/database/zip.go:ZipDB.fetchZip", "internal/reporter/reporter.go:Reporter.PrintJSONResults"]}
{"id": "C84", "title": "Running the command again gives the same result", "statement": "Two runs of the program on the same files, with the same flags and the same answers from servers, end with the same exit code, print the same and leave the same config files, although Go iterates over maps in a random order and the goroutines of API checks interleave in any way. This holds whenever map order does not decide which packages a file is read as (C39 says exactly when) and no two different packages of a file share name and version. A check with the API fails under every interleaving or gives one answer under all; only which of several errors it returns is left open.", "quantifier": "all pairs of orders of iteration, all interleavings, all flags, lockfile texts, configs, advisories, earlier checks and answers of servers", "why_tests_cant": "A test sees one order and one interleaving at a time, and the order of small maps rarely matters by chance.", "anchors": ["main.go:run", "pkg/lockfile/parse.go:Parse", "pkg/lockfile/parse.go:Packages.Ecosystems", "main.go:readAllLockfiles", "main.go:collectEcosystems", "main.go:loadDatabases", "main.go:writeUpdatedConfigs", "pkg/database/mem-check.go:memDB.addVulnerability", "pkg/database/api-check.go:APIDB.Check", "pkg/database/api-fetch-all.go:APIDB.FetchAll"]}
{"id": "C85", "title": "An update rewrites the config and keeps what it says, but nothing else in the document", "statement": "Updating the ignores of a config leaves everything else in the document as it was. What the code does: the new document is a config again, says the same databases with the same name, type and working directory and exactly the new ignores, and holds no other keys. A text that is not a config is left alone, a file without a document gets one, a second update with the same ignores changes nothing, and the update of the text on the disk refines the update of configs used in the rest of the model, also when it is cut off.", "quantifier": "all documents, all ignores, all YAML libraries that read back what they write, every point at which the write stops", "why_tests_cant": "The tests update configs that hold nothing but known keys.", "anchors": ["internal/configer/update.go:UpdateWithIgnores", "internal/configer/load.go:load", "internal/configer/load.go:rawConfig", "internal/configer/load.go:rawDatabaseConfig"]}
{"id": "C86", "title": "A quiet run with exit code 0 has read every advisory", "statement": "Exit code 0 means that every advisory file in the databases that were needed was read. What the code does: a file in an archive or directory that cannot be read or decoded is skipped with a message on stderr, which changes neither result nor exit code. There is exactly one message for each such file of an archive, a directory gives a message exactly if something in it was not read, a message about the cache appears exactly after a torn write or an edit from outside, a check gives a message about each advisory that names a package without saying anything about versions, unless it affects the package by another entry, and a message of the run comes from a load or a check of a database that was needed. So exit code 0 without messages does mean that everything was read, up to the archive that the server has now, and that no advisory that names a package was passed over for saying too little.", "quantifier": "all archives, directory trees, cache contents, histories of runs, lockfiles, configs, flags and states of the server", "why_tests_cant": "The tests look at the result of loading, and their databases are complete or have one bad file; none relates messages and exit code.", "anchors": ["pkg/database/zip.go:ZipDB.loadZipFile", "pkg/database/zip.go:ZipDB.load", "pkg/database/zip.go:ZipDB.fetchZip", "pkg/database/dir.go:DirDB.load", "pkg/database/config.go:Load", "pkg/database/osv.go:OSV.IsAffected", "pkg/database/mem-check.go:memDB.Check", "main.go:loadDatabases", "main.go:run"]}
{"id": "C87", "title": "The file of a cached archive holds the archive, and says what it is taken for", "statement": "A downloaded archive is saved as a JSON object with the URL, the ETag, the date and the bytes in base64, in the one text without line breaks and without bits that do not belong to them. Whatever is in the file later, it is read in one way: no JSON and null count as no cache, another value that is no object as an empty archive, and in an object each field has the value of the member with its name if that has the right type and is empty otherwise; the body is what the base64 text spells, or an array of bytes. Base64 reads exactly the texts that spell bytes. A message appears exactly if a value has a wrong type.", "quantifier": "all archives, all texts in the place of the file", "why_tests_cant": "The tests write the file with the code under test or by hand in the expected form.", "anchors": ["pkg/database/zip.go:Cache", "pkg/database/zip.go:ZipDB.fetchZip"]}
{"id": "C88", "title": "Parsers say what they skip", "statement": "The parsers of gradle.lockfile, mix.lock, yarn.lock and pom.xml go on after a part they cannot make sense of, and say so. There is one message, in order, for each line of a gradle.lockfile that is not an entry, a comment or the list of empty configurations, for each line of a mix.lock that begins like an entry and is none, for each package of a yarn.lock that is reported without a version, and for each dependency of a pom.xml whose version refers to a property that is not there; and there are no others. So if such a file is read without error and without message, every line that looks like an entry is reported, every package of yarn.lock has a version and every referenced property has a value.", "quantifier": "all texts of the files, all trees of a pom.xml", "why_tests_cant": "The tests do not look at stderr, and their files hold a handful of bad lines.", "anchors": ["pkg/lockfile/parse-gradle-lock.go:ParseGradleLock", "pkg/lockfile/parse-mix-lock.go:ParseMixLock", "pkg/lockfile/parse-yarn-lock.go:parsePackageGroup", "pkg/lockfile/parse-maven-lock.go:MavenLockDependency.resolveVersionValue", "pkg/lockfile/parse-maven-lock.go:ParseMavenLock"]}
{"id": "C89", "title": "What is written in a lockfile is checked before the exit code is 0", "statement": "With the default databases: if the detector ends with exit code 0, then for every lockfile that was given or found in a directory and every entry that is written in it, in any of the formats, there is a package as the entry says, the archive of its ecosystem was fetched and opened, and every advisory in it that affects the package is withdrawn or ignored, itself or through another for the same vulnerability. So an entry that is affected and not ignored means another exit code. If besides no database wrote a message, every file of the archive was read and no advisory names the package without versions. If no parser wrote a message, every line of a gradle.lockfile or mix.lock that is meant as an entry is one of these entries, every package of a yarn.lock has a version, and every property a pom.xml refers to is there.", "quantifier": "all lockfiles of all formats, all archives, configs, flags that use the default databases, all orders of maps", "why_tests_cant": "It joins the text of a lockfile with the exit code; tests check the parsers and the runs apart from each other, with a few files.", "anchors": ["main.go:run", "main.go:readAllLockfiles", "main.go:findLockfiles", "pkg/lockfile/parse.go:Parse", "pkg/database/mem-check.go:memDB.Check", "pkg/database/zip.go:ZipDB.load", "internal/reporter/report.go:Report.HasKnownVulnerabilities"]}
{"id": "C90", "title": "Reports are about what is written in the lockfiles", "statement": "Every result that is shown is for a lockfile that was given or found in a directory, read by the parser that was asked for or that its name stands for, and its packages are those that are written in it: for every package there is an entry that says it, and for every entry there is a package. So for every vulnerability in a report the package is written in the lockfile, and an advisory of a database that the lockfile requires, not withdrawn, affects it, unless that database is an API; and it is listed as ignored exactly if its ID is ignored for that lockfile.", "quantifier": "all lockfiles of all formats in the form in which they are read exactly, all databases, configs, flags", "why_tests_cant": "It joins a line of a report with the text of a lockfile and the files of a database; tests look at the parts, with a few files.", "anchors": ["main.go:run", "main.go:readAllLockfiles", "main.go:findAllLockfiles", "main.go:parseLockfile", "pkg/lockfile/parse.go:Parse", "main.go:OSVDatabases.check", "pkg/database/mem-check.go:memDB.Check"]}
{"id": "C91", "title": "Paths stand for the files that the operating system means by them", "statement": "On a disk without links to directories: a cleaned path stands for the same file as the path and has no element that could be left out. Every file that is checked is the one that an argument stands for, or an entry of a directory that an argument stands for, and it is parsed according to its name there. Without --config the config of a lockfile is the one in the directory that holds the lockfile, .osv-detector.yml before .osv-detector.yaml, and with --config it is the file that the flag stands for; so these give the vulnerabilities that are ignored. A requirements file is read with all files it includes, each looked up from the directory of the file that includes it, and every package they ask for is reported.", "quantifier": "all directory trees, current directories, paths with any number of `.`, `..` and repeated slashes, all contents of files", "why_tests_cant": "The tests use a handful of paths below one directory; they do not relate the cleaned paths to what the operating system does, and none includes a file by an absolute path.", "anchors": ["main.go:findLockfiles", "main.go:findAllLockfiles", "main.go:run", "internal/configer/load.go:Find", "internal/configer/load.go:Load", "pkg/lockfile/parse.go:Parse", "pkg/lockfile/parse-requirements-txt.go:parseRequirementsTxt"]}
{"id": "C92", "title": "Lockfiles that are read by lines", "statement": "Every text has its lines in one way: they end at line feeds, a carriage return before the end does not belong to the line, and a line feed at the end of the text begins no other line. These are the lines from which yarn.lock, mix.lock, gradle.lockfile and requirements.txt are read, down to the last one with or without a line end. If a line has 64 KiB or more, the file is an error and gives no packages; otherwise reading it is no error. What is trimmed from the ends of a text are exactly the white space characters of Unicode.", "quantifier": "all texts", "why_tests_cant": "The tests have no file with a long line, with carriage returns in the middle, or with characters outside ASCII.", "anchors": ["pkg/lockfile/parse-yarn-lock.go:groupPackageLines", "pkg/lockfile/parse-yarn-lock.go:ParseYarnLock", "pkg/lockfile/parse-mix-lock.go:ParseMixLock", "pkg/lockfile/parse-gradle-lock.go:ParseGradleLock", "pkg/lockfile/parse-requirements-txt.go:parseRequirementsTxt"]}
{"id": "C93", "title": "URLs of local databases", "statement": "An entry of a config whose URL is `file:/` with a relative path or `file:///` with any path, in which characters may be written as the codes of their bytes in UTF-8, is used as a local database, even if it has no type. On a disk without links to directories, its advisories are exactly those in the .json files of the directory that the operating system means by the path with the working directory added, and loading it is an error exactly if an entry vanishes meanwhile. In full: however many slashes there are after `file:`, the advisories come from the directory that is named after them.", "quantifier": "all paths and all spellings of them in a URL, all working directories, directory trees, contents of files", "why_tests_cant": "The tests use two or three URLs with plain characters, and none with two slashes.", "anchors": ["internal/configer/load.go:rawDatabaseConfig.inferDBType", "internal/configer/load.go:rawDatabaseConfig.toConfig", "pkg/database/dir.go:DirDB.load", "pkg/database/dir.go:NewDirDB"]}
{"id": "C94", "title": "Requests go to the URL of the API", "statement": "For every URL of an API with a scheme, a host, elements of a path and perhaps a port, a query and slashes at the end, in which characters may be coded: batches of queries are sent to the URL with the same scheme, host and query and one more element `querybatch`, and an advisory is fetched from that with `vulns` and its ID as further elements, for all IDs that are names of path elements. Characters of the elements and of the ID that have a meaning in URLs are coded, so different IDs have different URLs.", "quantifier": "all URLs in this form, all IDs without a slash", "why_tests_cant": "The tests use one server without a path in its URL and IDs of plain characters.", "anchors": ["pkg/database/api.go:NewAPIDB", "pkg/database/api-check.go:APIDB.bulkEndpoint", "pkg/database/api-fetch.go:APIDB.osvEndpoint"]}
{"id": "C95", "title": "go.mod files are read from their text", "statement": "The text of a go.mod is accepted exactly if it is one of the grammar: lines of words, bare or quoted, with comments, blocks in parentheses, and directives that are known, complete and, for module, go and toolchain, not repeated, with versions that are semantic versions and belong to the paths of their modules. It then gives the modules that its require and replace directives name, in order, with escapes resolved and versions in full; a text is read in one way only. The packages of the file are the required modules after replacement, and a file is an error exactly if its text is not one of the grammar.", "quantifier": "all texts, all directives in any order and notation", "why_tests_cant": "The tests use six files in the notation of `go mod tidy`; none has quoted words, escapes, builds, empty blocks or versions that do not belong to the path.", "anchors": ["pkg/lockfile/parse-go-lock.go:ParseGoLock"]}
{"id": "C96", "title": "Semantic versions are compared by precedence", "statement": "The comparisons of versions that are used for npm, crates.io, Go, Hex, Conan, NuGet and RubyGems packages are those of total preorders on all texts, valid versions or not, which is what the claims about ranges assume. Texts of semantic versions are ordered by the precedence of section 11 of the specification, and are equal only if they are the same up to build metadata, except for identifiers that are a hyphen with a number behind it. So a package with a semantic version is in a range exactly if its version is in one of the intervals by this precedence, whatever the order of the events.", "quantifier": "all texts for the laws, all semantic versions for the precedence, all ranges of any number of events", "why_tests_cant": "The tests compare a few dozen pairs of versions and use ranges of two to six events with three numbers each.", "anchors": ["pkg/database/osv.go:AffectsRange.containsVersion", "pkg/database/osv.go:RangeEvent.version"]}
{"id": "C97", "title": "Everything that is written, in order, and on which stream", "statement": "The full output of a run is determined, with and without --json: first which paths cannot be opened, then which databases in configs are not valid, then the databases that are loaded and for each its description or why it failed, then for each file an error or its header, its config, its databases, failed requests and its result, with an empty line between files, then the document with --json, then the lines about updated configs in order of their text. Messages are on stdout, or on stderr with --json; errors and diagnostics are always on stderr. An unknown parser is answered with the sorted list of all parsers; nothing to check, a bad config, --version and --list-ecosystems with exactly their message, followed by a document without results if --json is given.", "quantifier": "all flags, environments, files, configs and databases; any texts of errors and diagnostics and any colouring", "why_tests_cant": "Snapshot tests cover a few dozen command lines; combinations of failing paths, configs and databases with --json are not among them, and stdout and stderr are captured separately, so their order is not seen.", "anchors": ["main.go:run", "main.go:findAllLockfiles", "main.go:loadDatabases", "main.go:readAllLockfiles", "main.go:writeUpdatedConfigs", "internal/reporter/reporter.go:Reporter", "pkg/lockfile/parse.go:ListParsers"]}
{"id": "C98", "title": "A TOML lockfile is read from its text whatever way it is written", "statement": "Cargo.lock, poetry.lock, pdm.lock, uv.lock and pylock.toml are read from their text. A grammar of TOML 1.0 relates trees of values to their texts: blank lines, comments, line ends of both kinds, bare and quoted keys, keys with dots, the four kinds of strings with escapes, line-ending backslashes and up to five closing quotes, integers in four bases with underscores, floats, dates and times, arrays over many lines, tables in braces, tables and arrays of tables with headers, tables that are only given by the tables in them. Every text of a tree is read as exactly that tree, so no two trees share a text; the trees that have a text are exactly those in which no table has a key twice and integers have 64 bits. From there, a file is accepted exactly if the tree has the shape of the format, and its packages are those the tree says, in order.", "quantifier": "all trees and all texts of them, for the five formats in TOML", "why_tests_cant": "the fixtures are written by one tool each and use a small part of TOML; the number of ways to write the same document is unbounded", "anchors": ["pkg/lockfile/parse-cargo-lock.go:ParseCargoLock", "pkg/lockfile/parse-poetry-lock.go:ParsePoetryLock", "pkg/lockfile/parse-pdm-lock.go:ParsePdmLock", "pkg/lockfile/parse-uv-lock.go:ParseUvLock", "pkg/lockfile/parse-pylock.go:ParsePylock"]}
{"id": "C99", "title": "The URL of a database is read as a request URI", "statement": "An entry of a config becomes a database exactly if its URL is one of a grammar of request URIs and its type is known: `*`, a path, or a scheme with anything, a path or a host behind it; hosts are names, perhaps with a port, or addresses in brackets, perhaps with a zone and a port; user information may come before them; each part has its own rules for which characters stand for themselves and which bytes may be written as codes. What is read for a URI is its scheme in lower case, the name and password of the user, the host, the path and the query, with every code decoded, and a text is a URI in one way only.", "quantifier": "all texts; all schemes, users, hosts, zones, ports, paths and queries, in any spelling with codes", "why_tests_cant": "the tests use a handful of plain https and file URLs; codes, zones, users, passwords and malformed ports are not among them", "anchors": ["internal/configer/load.go:rawDatabaseConfig.toConfig", "pkg/database/api.go:NewAPIDB", "pkg/database/dir.go:DirDB.load"]}
{"id": "C100", "title": "Requests keep the user, the host and the query of the API", "statement": "For every URL of an API with a host, of any kind that is accepted, the URLs of requests are URLs again, and their parts are those of the API, with `querybatch` or `vulns` and the ID of the advisory as further elements of the path; in particular credentials, addresses with zones and ports, and queries stay what they are.", "quantifier": "all URLs with a host, with or without users, passwords, zones, ports and queries, in any spelling; all IDs that are names", "why_tests_cant": "the tests use a local server without credentials, whose URL has a name and a port only", "anchors": ["pkg/database/api-check.go:APIDB.bulkEndpoint", "pkg/database/api-fetch.go:APIDB.osvEndpoint"]}
{"id": "C101", "title": "YAML files are read as the documents that they spell", "statement": "There is a grammar of YAML texts: lines with keys, dashes, comments and indentation, plain, single and double quoted scalars, and collections in brackets and braces on one line. A text of the grammar spells one document only, and the reader accepts exactly the texts of the grammar, with that document, whatever the library does elsewhere. So a config, a pnpm-lock.yaml or a pubspec.lock is accepted exactly if the document that its text spells has the shape, and what is read is what the document says.", "quantifier": "all texts of the grammar, with any indentation, quoting, comments, nesting and any characters that YAML allows; all behaviours of the library outside the grammar", "why_tests_cant": "the fixtures are written by pnpm and pub with one layout each; the number of ways to write the same document is unbounded", "anchors": ["internal/configer/load.go:load", "pkg/lockfile/parse-pnpm-lock.go:ParsePnpmLock", "pkg/lockfile/parse-pubspec-lock.go:ParsePubspecLock"]}
{"id": "C102", "title": "A config that was written is read back", "statement": "For every config, whatever the strings in it and however each of them is quoted, the text that an update writes spells the document of that config, and loading the text gives the config back; so different configs have different texts, and an update of a config in text leaves a config in text with the new ignores and the old databases.", "quantifier": "all configs with all strings; all ways to write a string on one line; all texts that are updated", "why_tests_cant": "the tests update a few configs with plain identifiers; strings that need quotes, that look like null or contain colons, hashes, quotes or control characters are not among them", "anchors": ["internal/configer/update.go:UpdateWithIgnores", "internal/configer/load.go:load"]}
{"id": "C103", "title": "An update that is interrupted is noticed", "statement": "Whatever the moment at which an update of a config stops, the file that it leaves is the old config, the new config, or a text that is refused when it is loaded.", "quantifier": "all configs, all ignores, all moments at which the update can stop", "why_tests_cant": "the tests let every update finish", "anchors": ["internal/configer/update.go:UpdateWithIgnores", "internal/configer/load.go:load"]}
{"id": "C104", "title": "From the texts of the files to the exit code", "statement": "A lockfile in TOML, YAML or the language of go.mod, the config that applies to it, and the files of the archive of an ecosystem are texts. If the exit code is 0, then for every package that is written in the text of a lockfile, whose versions are semantic versions, every advisory that is written in the text of a file of the archive and affects the package by precedence of versions is withdrawn, or it or another one for the same vulnerability is ignored on the command line or by the text of the config; turned around, an advisory for which this is not so makes the exit code different from 0.", "quantifier": "all texts of lockfiles, configs and advisories in the grammars; all behaviours of the readers outside of them; all arguments, flags and directories", "why_tests_cant": "the tests of the command use fixtures of one layout each and recorded output; the number of texts for the same lockfile, config and advisory is unbounded", "anchors": ["main.go:run", "pkg/lockfile/parse.go:Parse", "internal/configer/load.go:load", "pkg/database/zip.go:ZipDB.load", "pkg/database/mem-check.go:memDB.VulnerabilitiesAffectingPackage"]}
{"id": "C105", "title": "The version of a pnpm-lock.yaml is read as the number that it is", "statement": "A decimal number, with or without sign, point and exponent, is read with the value that it has. A pnpm-lock.yaml is refused if its version is too large for a double; otherwise its paths are read by the rule for version 9 exactly if 9 is the double next to the number, which with at most 15 digits behind the point is the case only for the number 9 itself, however it is written. The numbers in a bun.lock are errors exactly if they are too large, so none without exponent and at most 300 characters is.", "quantifier": "all decimal numbers with at most four digits in the exponent, in all spellings", "why_tests_cant": "the fixtures have the versions 5.3, 5.4, 6.0 and 9.0; rounding and other spellings are not tested", "anchors": ["pkg/lockfile/parse-pnpm-lock.go:PnpmLockfile.UnmarshalYAML", "pkg/lockfile/parse-pnpm-lock.go:extractPnpmPackageNameAndVersion", "pkg/lockfile/parse-bun-lock.go:ParseBunLock"]}
{"id": "C106", "title": "Times of advisories keep their meaning", "statement": "A text of RFC 3339 in an advisory becomes a text for the same moment, to the nanosecond, in the same zone. The new text has at most nine digits after the point, no zero at the end of them, and Z for zones without difference; there is one such text per time, and it stays as it is when it is read again. Two texts become the same if and only if they mean the same time. An advisory that has been read is the same after it has been printed as JSON and read again.", "quantifier": "for all texts of times, all advisories and all ways to write them as JSON", "why_tests_cant": "Tests compare advisories with times in one format; leap years, zones of zero difference and long fractions are not in them.", "anchors": ["pkg/database/osv.go:OSV", "pkg/database/zip.go:ZipDB.load"]}
{"id": "C107", "title": "Slices are sorted", "statement": "The sorting of the Go library, with all of its parts (insertion, heaps, choice of pivots, partitions, partial insertion, random swaps), keeps the elements of the slice for every comparison; sorts it whenever the comparison is an order on elements at different indices; and leaves slices that are in order untouched. Slices of up to twelve elements are sorted by insertion. If the order tells all elements apart the result does not depend on the algorithm. So the theorems about version ranges, lists of packages and databases, which hold for every sorter of this kind, hold for the one that runs.", "quantifier": "for all slices of all lengths, all comparisons and all orders", "why_tests_cant": "Fixtures have a handful of events and packages; above twelve elements the algorithm takes other branches, and the heap sort and the random swaps only run on unfavourable inputs.", "anchors": ["pkg/database/osv.go:AffectsRange.containsVersion", "pkg/database/api-fetch-all.go:APIDB.FetchAll", "pkg/lockfile/parse.go:Parse", "pkg/lockfile/csv.go:fromCSV"]}
{"id": "C108", "title": "Versions of Python packages are ordered by PEP 440", "statement": "The versions of packages from PyPI are compared as PEP 440 orders them, in every spelling that it permits: epochs, releases filled up with zeros, developmental, pre- and post-releases, local versions, separators, other words for the phases, capital letters, spaces and a leading v. Two texts are equal exactly if they are texts of the same version. On all texts, versions or not, the comparison is a total preorder, and what is not a version comes before all versions. A package is in a range exactly if its version is in one of the intervals that the events describe by this order, whatever the order of the events.", "quantifier": "for all texts, all versions and all spellings of them, all ranges of events with such versions", "why_tests_cant": "The fixtures have plain releases; the order has seven levels and each has spellings that can be combined without limit.", "anchors": ["pkg/database/osv.go:AffectsRange.containsVersion", "pkg/lockfile/parse-requirements-txt.go:parseLine", "pkg/lockfile/parse-poetry-lock.go:ParsePoetryLock"]}
{"id": "C109", "title": "What makes a run fail, by the orders of versions that the ecosystems publish", "statement": "For packages from crates.io, Go, Hex, npm and ConanCenter versions are ordered by semantic versioning, for PyPI by PEP 440, for NuGet, RubyGems, CRAN, Packagist and Maven by their own rules. An advisory is one for a package exactly if it affects it by that order: it lists the version, or the version is in one of the intervals of a range. If the exit code is 0, then for every package in a lockfile of any format, every advisory in the texts of the archive that affects it in this sense is withdrawn, or it or another one for the same vulnerability is ignored on the command line or in the text of the config. Turned around, any other advisory that affects the package makes the exit code different from 0. Nothing in the statement refers to the comparison of the program.", "quantifier": "for all lockfiles of all formats, all texts of advisories and configs, all versions in the published grammars, all orders of the events", "why_tests_cant": "The tests of the command run on recorded output for a few versions; the versions, their spellings and the intervals are unbounded.", "anchors": ["main.go:run", "pkg/database/osv.go:OSV.IsAffected", "pkg/database/osv.go:AffectsRange.containsVersion", "pkg/database/mem-check.go:memDB.VulnerabilitiesAffectingPackage"]}
{"id": "C110", "title": "Versions of NuGet packages are ordered as NuGet has it", "statement": "The versions of packages from NuGet are compared by their one to four numbers, with zeros for missing ones, then a pre-release comes before its release, then by the identifiers of the pre-release without regard to the case of the letters, numbers before words and the first difference deciding. Build metadata does not count. Two texts are equal exactly if they are texts of the same version. A package is in a range exactly if its version is in one of the intervals that the events describe by this order, whatever the order of the events.", "quantifier": "for all texts of versions, all ranges of events with such versions", "why_tests_cant": "The fixtures have a few versions with three numbers; numbers, identifiers, spellings and the order of the events are unbounded.", "anchors": ["pkg/database/osv.go:AffectsRange.containsVersion", "pkg/lockfile/parse-nuget-lock.go:parseNuGetLockDependencies"]}
{"id": "C111", "title": "Versions of gems are ordered as RubyGems has it", "statement": "The versions of gems are compared by their runs of digits and letters, whether dots separate them or not: zeros at the end of the numbers, and at the end of what follows them, do not count, the first difference decides, with zeros for what is missing, numbers by value, words by characters, and words before numbers. Two texts are equal exactly if they are texts of the same version. On all texts the comparison is a total preorder. A gem is in a range exactly if its version is in one of the intervals that the events describe by this order, whatever the order of the events.", "quantifier": "for all texts of digits, letters and dots, all ranges of events with such versions", "why_tests_cant": "The fixtures have a few plain versions; runs, zeros, places without dots and the order of the events can be combined without limit.", "anchors": ["pkg/database/osv.go:AffectsRange.containsVersion", "pkg/lockfile/parse-gemfile-lock.go:gemfileLockfileParser.parseSpec"]}
{"id": "C112", "title": "Versions of R packages are ordered as R has it", "statement": "The versions of packages from CRAN are compared number by number, dots and dashes alike; where there is no difference the one with more numbers is the newer one. Two texts are equal exactly if they have the same numbers. A package is in a range exactly if its version is in one of the intervals that the events describe by this order, whatever the order of the events.", "quantifier": "for all texts of numbers with dots and dashes between them, all ranges of events with such versions", "why_tests_cant": "The fixtures have a few versions with three numbers; the numbers, their count and the order of the events are unbounded.", "anchors": ["pkg/database/osv.go:AffectsRange.containsVersion", "pkg/lockfile/parse-renv-lock.go:ParseRenvLock"]}
{"id": "C113", "title": "The comparison of versions matters on the versions that occur only", "statement": "If the comparison of versions is one of a total preorder on some texts, and agrees there with an order, and the version of the package and those of the events are among these texts, then a range contains the version exactly if it is in one of the intervals that the events describe by the order, and an advisory is one for the package exactly if it affects it by the order. What the comparison makes of any other text has no influence, nor has the order of the events.", "quantifier": "for all comparisons, all sets of texts on which they are lawful, all ranges, advisories and packages with such versions, all orders of the events", "why_tests_cant": "Comparisons that break transitivity on odd texts make sorting unpredictable; tests can not show that sane versions are safe from this.", "anchors": ["pkg/database/osv.go:AffectsRange.containsVersion", "pkg/database/osv.go:OSV.IsAffected"]}
{"id": "C114", "title": "Versions of PHP packages are ordered as PHP has it", "statement": "The versions of packages from Packagist are compared as lists of numbers and phases, whether separators stand between them or not: at the first difference development versions come first, then alpha, beta and release candidates, then versions that end there, then numbers by value, then patches. Two texts are equal exactly if they have the same list. On all texts the comparison is a total preorder. A package is in a range, and an advisory is one for it, exactly if this is so by this order, whatever the order of the events.", "quantifier": "for all texts of numbers and phases with or without separators and v, all ranges and advisories with such versions", "why_tests_cant": "The fixtures have a few plain versions; numbers, phases and separators can be combined without limit.", "anchors": ["pkg/database/osv.go:AffectsRange.containsVersion", "pkg/lockfile/parse-composer-lock.go:ParseComposerLock"]}
{"id": "C115", "title": "Versions of Java packages are ordered as Maven has it", "statement": "The versions of packages from Maven that are numbers with an optional qualifier, which may have a count, or with a number behind a dash, are compared number by number with zeros for missing ones; then alpha, beta, milestone, release candidate and snapshot come before the release, service packs, then other qualifiers by the alphabet and then numbers behind a dash after it; then the count, or that number, decides. The case of letters, a dash between number and qualifier, the words for a release and the short forms a, b and m before a count make no difference. Two texts are equal exactly if they have the same version. A qualifier behind a dot makes a version older than its numbers if it is one before the release, and newer otherwise. A dot or dash at the end makes no difference. On all texts the comparison is a total preorder. A package is in a range, and an advisory is one for it, exactly if this is so by this order, whatever the order of the events.", "quantifier": "for all texts of numbers with or without qualifier and count, all ranges and advisories with such versions", "why_tests_cant": "The fixtures have many versions that occur, but numbers, qualifiers and spellings can be combined without limit, and the order on all texts is not transitive.", "anchors": ["pkg/database/osv.go:AffectsRange.containsVersion", "pkg/lockfile/parse-gradle-lock.go:ParseGradleLock", "pkg/lockfile/parse-maven-lock.go:ParseMavenLock"]}
