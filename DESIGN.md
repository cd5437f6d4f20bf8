# Formal model of osv-detector in Lean 4

The model is a set of total functions, one per Go function, over plain data. Each definition cites the file and lines it models and says
where it simplifies. Properties are theorems about these functions for all inputs; statements use small specifications in
`lean/Verif/Spec` that do not refer to the helpers of the model.

## Layout

| Path | Content |
| --- | --- |
| `lean/Verif/Go/*` | The parts of the Go standard library that the code uses: strings, `path`, `sort.Slice`, regular expressions, `bufio.Scanner`, `encoding/json`, `net/url`, base64, `errgroup` |
| `lean/Verif/Model/*` | The code of the repository |
| `lean/Verif/Spec/*` | Specifications used in the statements |
| `lean/Verif/Lemmas/*` | Helper lemmas |
| `lean/Verif/Props/*` | The property theorems, named `Cnn_…`, each file with `example`s showing that the hypotheses can be met |
| `seeded/LOG.jsonl` | Edits of the model that imitate bugs, and the theorems that caught them |

## How Go is represented

| Go | Model |
| --- | --- |
| `string` | `Str`, a list of Unicode characters. Code that works on bytes (`truncate`, slicing) is modelled on the UTF-8 bytes. Invalid UTF-8 is not represented. |
| `error` | `Except` or `Option`, or a flag next to the result where Go returns both |
| panic | an explicit outcome (`none` or `Outcome.panic`) in every function that can panic |
| `nil` pointer or slice | `Option`, or `[]` where the code does not distinguish them |
| map | an association list and a parameter for the order of iteration |
| pointer shared between callers | an index into an explicit heap |
| goroutines | a state machine; the theorems hold for every reachable state |
| files, network, time | parameters (environment records), with crash points where the property is about crashes |
| `sort.Slice` | any function with the contract of `sort.Slice` (`Go/Sort.lean`, `Sorter`); the algorithm of the library satisfies it (C107) |
| `strings.ToLower` | ASCII letters only |

## Plan and result per property

`Full` means that the theorems state the whole property. For a partial result the full statement is kept as a `def Cnn_full` (or in the
comment of the theorem), its negation is proved with a concrete witness, and the theorems ending in `_partial` say what holds.
Theorem names are in `MANIFEST.json`.

| Property | What is modelled | How it is proved | Result |
| --- | --- | --- | --- |
| C01 Version ranges are evaluated as intervals | `containsVersion`, with comparison and sort as parameters | the fold over events is characterised by positions, then sortedness gives intervals | Full |
| C02 Checks do not depend on what was checked before | checks as state transitions: each evaluation leaves the events sorted | invariant: events are a permutation of the loaded ones; results do not depend on the permutation | Partial: Proved for ranges without ties between an introduction and another event (any mix of ecosystems), and with ties when all checks use one version order. False in general: C02_mixed_orders_with_ties_interfere gives a database where checking one package changes the answer for the next. |
| C03 Local database check is sound and complete | `memDB` as a map from key to advisories, `Check` | induction over the load sequence; membership in the index | Partial: Soundness is unconditional. Completeness is proved for packages whose ecosystem has no suffix; advisories are filed under the ecosystem without suffix but looked up with it, so a package with a suffixed ecosystem gets nothing (C03_suffix_finds_nothing, C03_counterexample). |
| C04 No duplicate vulnerabilities per package | `Includes`, `Unique` and the check loop | fold invariant | Full |
| C05 The package-name filter never hides a vulnerability | `mightAffectPackages` and loading | two loads compared by induction | Full |
| C06 Withdrawn advisories are never reported by local databases | `Check` and `VulnerabilitiesFor` | withdrawn advisories are removed from the load sequence without effect | Full |
| C07 Explicit versions and version-less packages | `IsAffected`, `affectsVersion` | case analysis | Full |
| C08 Any matching version range is enough | `affectsVersion` | induction over ranges | Partial: False as stated: a GIT range listed before the matching range stops the loop (C08_git_range_hides_others). Proved when no range of another type precedes the matching one; C08_exact is the exact rule for all advisories with ordered events. |
| C09 PyPI advisory names are matched up to PEP 503 normalisation | `NormalizedName` through the regular-expression engine | replacing runs equals a recursive function | Full |
| C10 Ecosystem suffixes only matter when both sides have one | `areEcosystemsEqual` | string lemmas | Full |
| C100 Requests keep the user, the host and the query of the API | `bulkEndpoint`, `osvEndpoint`, `Request.string` | a written host, user and path are of the grammar again, by splitting spellings at characters that cannot be part of a code; a zone outside ASCII as the witness against the full claim | Partial: Refuted for addresses whose zone has characters outside ASCII: they are written as codes, which are not accepted in zones (C100_counterexample). Proved for all other URLs with a host. Paths whose elements are empty or dots are left to C71 and C100_path_partial. |
| C101 YAML files are read as the documents that they spell | `YamlScan.scan` (`Go/YamlScan`), `yamlWith` | a grammar of texts as relations (`Spec/YamlDoc`): scalars, lines as lists of tokens with columns, and blocks of tokens; reading by induction on the derivation, the converse by cases on the reader, for each level; then C75 | Full |
| C102 A config that was written is read back | `writeConfig`, `yamlQuoted`, `yamlStyled` (`Model/ConfigYaml`) | each line that is written is a line of the grammar, and the tokens are the block of the document; an instance of `YamlText`, so that C29 and C85 apply | Full |
| C103 An update that is interrupted is noticed | `updateFiles` with `yamlLibrary` | beginnings of the new text are texts of configs again, and the last line break does not matter; one of them as the witness | Partial: Refuted: C103_counterexample, by a prefix that ignores another advisory and has lost the database. What is left can be any number of the first ignores without databases, all ignores with the first databases, or an identifier cut short, for every config and every way to quote (C103_ignores_partial, C103_databases_partial, C103_other_partial). |
| C104 From the texts of the files to the exit code | `textEnv`, `textWorld` | entries, configs and advisories in terms of texts (`Spec/WorldText`); C89 with the readers of C70, C77, C95, C98, C101 and the order of C96; a run on texts as a sample | Full |
| C105 The version of a pnpm-lock.yaml is read as the number that it is | `ParseFloat.read`, `pnpmNineWith`, `isFloatWith` (`Go/ParseFloat`) | texts of decimal numbers as a relation, numbers as fractions, rounding as no multiple of 2^-49 being closer than 9 | Full |
| C106 Times of advisories keep their meaning | `Rfc3339.read`, `Rfc3339.print`, `canonWith` | `TimeText` says which texts are times and which moment, fraction and zone they mean. Reading is equivalent to it. Printing gives a text with the same meaning; `Nanoseconds` fills the fraction up to nine digits. With C70 advisories can be read back. | Full |
| C107 Slices are sorted | `Pdq.slice`: pdqsort with its insertion sort, heap sort, pivots, partial insertion, random swaps | All parts only swap inside of their range (`Moves`). Sorted: loop invariants of each part; induction over the recursion with the invariant that nothing in a range is below the element in front of it, which is why equal elements may be skipped and the partial insertion does not leave the range. | Full |
| C108 Versions of Python packages are ordered by PEP 440 | `Pypi.parse`, `Pypi.compare` (`Model/Pypi`) | PEP 440 as two relations: texts with versions (`Spec/Pep440`, `Text`), and the order of versions as the first suffix that differs in the written order (`Precedes`). Laws by combinators of lawful comparisons. The reader is followed part by part from the right, with what the rest may begin with; a part without number may take the separator of the next one, which makes no difference. | Full |
| C109 What makes a run fail, by the orders of versions that the ecosystems publish | `run`, `OSV.isAffected`, `AffectsRange.containsVersion` | `AgreesOn`: a comparison that is lawful on the good texts and agrees there with an order; then ranges are intervals by the order, in any order of the events (`Steady`), which is all that C66 needs. Put into it with the readers of C104 and the entries of C89. | Full |
| C11 Local check results align with the packages | `Check` of local databases | induction over packages | Full |
| C110 Versions of NuGet packages are ordered as NuGet has it | `Semantic.nuget`, `parseLike` | `NuGetOrder.Written` and `Precedes`: numbers filled up with zeros, then pre-releases as in C96 on the text in lower case. | Partial: False as stated: identifiers that are a hyphen with digits are read as negative numbers (C110_counterexample: 1--01 and 1--1). Proved for all other versions. The comparison of the library is a model by its known behaviour. |
| C111 Versions of gems are ordered as RubyGems has it | `GemVersion.gems`: `canonicalize`, `group`, `removeZeros` (`Model/GemVersion`) | The texts as runs of digits and letters (`Text`), the runs that count (`Canonical`), the first difference (`Precedes`). The loop is followed run by run, so splitting gives the runs; zeros by lists that end in them. | Partial: False as stated: zeros with more than one digit are not taken away (C111_counterexample: 1.00.a and 1.a). Proved for all versions that write zero as one digit. The comparison of the library is a model by its known behaviour. |
| C112 Versions of R packages are ordered as R has it | `CranVersion.cran` (`Model/CranVersion`) | Comparing with zeros for what is missing and then by length is the comparison of lists; texts by splitting at the separators. | Full |
| C113 The comparison of versions matters on the versions that occur only | `AffectsRange.containsVersion`, `OSV.isAffected` | A comparison that is lawful on some texts is extended to a lawful one on all texts (`extend`), which makes no difference where only these texts occur; sorting and scanning compare nothing else. | Full |
| C114 Versions of PHP packages are ordered as PHP has it | `Packagist.packagist` (`Model/Packagist`) | Lists of numbers and phases with their texts (`Written`) and the first difference (`Precedes`). Each list gets a list of keys that ends in a key for the end, between the phases; comparing is comparing keys. The canonical text is followed piece by piece. | Partial: False as stated: on all texts the comparison is no total preorder (C114_counterexample: 1.1 and 1.# are equal, so are 1.# and 1.0). Proved for all texts of numbers and phases. The comparison of the library is a model by its known behaviour. |
| C115 Versions of Java packages are ordered as Maven has it | `MavenVersion.maven` (`Model/MavenVersion`) | Numbers, phase and count with their texts (`Written`) and the order on those (`Precedes`). The tokens of a text are its numbers without zeros at the end, then the tokens of phase and count; comparing tokens is comparing numbers, ranks of phases and counts, by induction on the numbers. | Partial: False as stated: on all texts the comparison is no total preorder (C115_counterexample: 1 is older than 1.a, that is older than 1a1, but 1a1 is older than 1). Proved for all texts of numbers with an optional qualifier and count. The comparison of the library is a model by its known behaviour. |
| C12 Listing a database yields every advisory once | `Vulnerabilities` | permutation invariance | Full |
| C13 API batching partitions the packages | `batchPkgs` | well-founded induction on the index | Full |
| C14 API results align for every schedule, and any failed batch fails the check | batches run by `errgroup` as a state machine | invariant of all reachable states, measure for termination | Full |
| C15 API results are never lost to detail failures | detail requests in any order of completion | invariant over the schedule | Full |
| C16 API query payload | `buildAPIPayload` | case analysis | Full |
| C17 Database loading dispatch and guards | `Load` and the constructors | case analysis | Full |
| C18 The zip cache returns only what was downloaded | `fetchZip` as a transition on the cache file | invariant over histories of runs | Full |
| C19 A crash while writing the zip cache never corrupts later results | writing the cache with a crash after any number of bytes | no proper prefix of a JSON object is a JSON document | Full |
| C20 Zip archives load exactly the JSON files under the working directory | `load` and `loadZipFile` over archive entries | induction over entries | Partial: Proved except for sibling directories: the path check is a plain prefix test, so a working directory db also accepts db2 (C20_sibling_directory). |
| C21 Directory databases load every readable advisory | `filepath.Walk` over a tree and the callback | induction over the tree | Partial: Proved when no entry disappears between listing and reading; a vanishing entry is silently skipped (C21_vanishing_entry). |
| C22 Exit code 0 means nothing wrong | `run` with an output trace | evaluation of the run, fold invariants | Partial: The full statement is false: a directory that cannot be listed is skipped without an error (C22_unlistable_directory), and databases print diagnostics to stderr without counting them as errors (C22_database_diagnostics). Everything else is proved. |
| C23 Exit code classification | `run` | evaluation of the run | Full |
| C24 JSON mode keeps stdout machine readable | `run` and the reporter | invariant on the trace | Full |
| C25 Merging results of several databases | `transposePkgResults` | fold invariant | Full |
| C26 Ignores split results exactly by ID and are monotone | `transposePkgResults`, `run` with two ignore lists | simulation between the two runs | Full |
| C27 A failing database does not lose the results of others | `check` | fold over databases | Full |
| C28 Updating config ignores converges | `UpdateWithIgnores` and two runs | consequence of C26 | Full |
| C29 Updating a config preserves everything but the ignores, even across a crash | updates as a sequence of file operations with crash points | case analysis on the crash point | Partial: Fields other than the ignore list survive a complete write. A write that stops after truncation loses them (C29_crash_loses_databases). The YAML codec is abstract, with a round-trip law; C85 derives it from a law about texts and trees alone, and C102 proves it for a model of the library. |
| C30 Databases are de-duplicated by identifier | `uniqueDBConfigs`, `loadDatabases` | induction | Full |
| C31 Database identifiers distinguish different databases | `Identifier` | injectivity of a concatenation | Partial: False when a URL contains #: C31_fragment_counterexample. Proved for URLs without #; C31_iff says exactly which databases share an identifier. |
| C32 Every lockfile is checked with its own databases | `run` with configs on a heap | invariant of the loop over files | Partial: False with both --no-config and --no-config-databases: C32_shared_config_counterexample and C32_hidden_vulnerability. Proved for all other flags. |
| C33 Parse-as prefixes survive path discovery | `parseLockfilePathWithParseAs` and the loop over paths | string lemmas | Full |
| C34 Directory discovery | `findLockfiles`, `findAllLockfiles` | contract of sort, induction | Full |
| C35 Config discovery precedence and errors | `configer.Find`, `Load` | case analysis | Full |
| C36 Extra database configs | extra databases of a config | case analysis, induction | Full |
| C37 CSV records | CSV records to packages | case analysis | Full |
| C38 Parsed packages are sorted and nothing is lost | `Parse` and sorting | contract of sort; a sorted list without ties is unique | Full |
| C39 Parsing does not depend on map iteration order | all parsers that iterate over maps | results described without the order | Partial: For all contents and all pairs of orders. Holds without condition for pubspec.lock, renv.lock, bun.lock, pom.xml and requirements.txt. For package-lock.json it holds exactly if no two different packages share a key (C39_npm_partial, C39_npm_iff), for pnpm-lock.yaml exactly if not one key panics while another is refused (C39_pnpm_iff), for packages.lock.json, Pipfile.lock and go.mod exactly if no two different packages share a name@version key (C39_nuget_iff, C39_pipenv_iff, C39_go_iff); a counterexample for each. C39_table_partial covers the whole table of parsers at once. |
| C40 requirements.txt includes terminate | includes with fuel | the fuel suffices: visited files grow | Full |
| C41 requirements.txt includes are complete | includes | depth-first search reaches the closure | Partial: Soundness, failure exactly when a reachable file is unreadable, and exactness are proved for every include graph and iteration order. Exactness needs names without @, because packages are kept under name@version (C41_counterexample); C41_exact_iff is the exact condition. |
| C42 requirements.txt lines | `parseLine` through regular expressions | grammar in both directions | Partial: Every line is characterised (C42_entry). The full claim is false for environment markers with another operator and for white space before extras (C42_marker_counterexample, C42_extras_counterexample); proved for simple requirements. |
| C43 requirements.txt line continuations and comments | the loop over lines | relation between lines and joined lines | Full |
| C44 yarn.lock blocks | `groupPackageLines`, `parsePackageGroup` | grammar of blocks with uniqueness | Full |
| C45 yarn.lock package names | `extractYarnPackageName` | grammar of descriptors with uniqueness | Full |
| C46 package-lock.json v1 nested dependencies | version 1 trees | induction over the tree | Partial: Soundness for every tree, iteration order and depth, exactness when names have @ only in front and no two different packages share a key, and the exact condition of the panic on an alias without a version (C46_panic_iff). The full claim is false: a git dependency and a dependency whose version is that commit share a key (C46_counterexample). |
| C47 package-lock.json v2 packages | version 2 package maps | induction over the map | Partial: Soundness, absence of panics and that the root is never reported hold for every file. Completeness is false when one name and commit occurs with two versions (C47_counterexample) and is proved for all other files (C47_partial); C47_iff: it holds exactly for these files. |
| C48 go.mod replacements | requirements and `replace` directives | fold over directives | Partial: golang.org/x/mod is a parameter here, and modelled in C95. Exact for every list of requirements and directives in which no replacement is replaced again by a later directive (C48_partial); otherwise the program chains directives (C48_counterexample). C48_applied gives the packages of every file, chained or not. |
| C49 pom.xml versions | dependencies, `resolveVersion`, property references | fold invariant; regular expressions | Partial: One package per name and which dependency wins hold for every pom (C49_names), and the lower bound for every requirement on one line (C49_lower). C49_rule and C49_reported give what is reported for every version on one line: the reference from the first ${ to the last } stands for the whole. Versions that mix text and references, or contain line breaks, are wrong (C49_counterexample, C49_newline_counterexample; C49_text_counterexample from the XML text). The decoder is a parameter here and modelled in C74. |
| C50 Gemfile.lock specs | the parser with its states | relation between lines and packages | Partial: For every text, the reported packages are given by a relation on its lines (C50_entries, with uniqueness), and for files in Bundler's format they are the gems of the source sections (C50_written_partial). The full claim is false: an option such as a tag that contains GEM or GIT clears the commit of its section (C50_commit_counterexample). |
| C51 mix.lock entries | mix.lock lines | grammar in both directions | Full |
| C52 gradle lockfile entries | gradle lines | grammar in both directions | Full |
| C53 pnpm dependency paths | dependency paths | regular expressions characterised; grammar of keys | Partial: From the decoded file (C75 has the decoding of the tree of nodes). Exact for every iteration order for keys of version 9, /name/version paths with any peers and /name@version paths with flat, unscoped peers and no build metadata (C53_partial). False for scoped peers (C53_counterexample), nested peers (C53_nested) and build metadata (C53_build). Errors and panics are characterised exactly (C53_invalid_iff, C53_panic_iff), and C53_rule and C53_reported give the reading of every other key. |
| C54 bun.lock tuples | bun.lock tuples | case analysis on JSON values | Partial: Heads are characterised with existence and uniqueness; every tuple that is not empty is read as claimed, wrongly typed files are errors. An empty tuple panics (C54_counterexample, C54_panic_iff). The conversion from JSON with comments is modelled in C77. |
| C55 Commit extraction from resolutions | `tryExtractCommit` with a model of `net/url` | every pattern characterised in both directions | Partial: The forms are proved in both directions. The clause about registry tarballs is false for tarballs hosted on github.com, gitlab.com or bitbucket.org, whose checksum fragment is taken for a commit (C55_registry_counterexample); proved for all other hosts. |
| C56 Parsers do not crash on readable input | panics of all parsers | exact conditions, witnesses | Partial: False: C56_counterexample (a document null) and one witness per further cause. The exact condition of a panic, over all contents, is proved for every parser that can panic; parsers of other formats are total functions of the model, with C56_pubspec, C56_yarn and C56_gemfile for the three places that need an argument. The reader of YAML text is a parameter. |
| C57 One-to-one formats lose nothing | formats with one package per entry | induction over entries | Full |
| C58 Advisory descriptions are bounded | `truncate` on UTF-8 bytes, `Describe`, `Link` | induction over bytes | Partial: On bytes. Proved when there is a summary, fewer than 80 characters, a space among the first 80 or only ASCII among them (C58_partial); no panic and the bound hold for all details (C58_total, C58_bounded), and C58_iff is the exact condition. False otherwise: a character may be cut in two (C58_counterexample). |
| C59 Report summary counts | report counts and text | induction | Full |
| C60 Ecosystem databases follow the packages | `Ecosystems` | induction | Full |
| C61 Listing packages never touches databases or configs | `run` with `--list-packages` | two environments compared | Full |
| C62 Checking against a local database never crashes | comparisons that may panic, inside any sort | two versions of the fold compared; the sorter may compare any pair | Partial: False: semantic.MustParse (osv-scalibr, a parameter) panics on unsupported ecosystems and invalid versions (C62_counterexample). Proved when all versions that may be compared are valid (C62_partial, in every history), with the exact condition of a panic for a package version that is not valid (C62_unparsable_iff) and for validity that depends on the ecosystem only (C62_supported_iff). |
| C63 Loading an archive never crashes | `fetchZip` with a nil cache | case analysis | Partial: Proved for servers that answer 304 only to conditional requests; a 304 without a usable cache dereferences a nil pointer (C63_not_modified_without_cache). |
| C64 packages.lock.json dependencies of all frameworks | packages.lock.json from the JSON text | typed decoder characterised, fold invariant | Partial: From the JSON text, for every iteration order. Soundness and completeness up to the key name@resolved hold for every file; exactness fails for names with @ (C64_counterexample) and is proved for all others (C64_partial); C64_exact_iff is the exact condition. |
| C65 Pipfile.lock versions | Pipfile.lock from the JSON text | as C64 | Partial: From the JSON text, for every iteration order. A version of one byte panics (C65_counterexample, C65_panic_iff) and names with @ can hide packages (C65_collision_counterexample); proved for all other files; C65_exact_iff is the exact condition on the keys. |
| C66 Exit code 0 means that no package is affected | parsers, local databases and `run` composed | composition of C03, C25, C26, C32, C33 and C38 | Partial: False for package ecosystems with a suffix (C66_counterexample). Proved with parsers, local databases and the command composed (Model/World): C66_clean_exit_partial for every required database, C66_default_partial from the discovered file on with the default databases (no condition on the ecosystem is left), C66_reported_partial for the converse. Conditions: version order laws, well-formed advisories, not both --no-config and --no-config-databases. The ignored advisory may be linked through a third one (Spec.Linked). API answers, readers of TOML, YAML and go.mod text, unzipping and advisory JSON are parameters. |
| C67 Packages carry the ecosystem of their lockfile | the table of parsers | one lemma per parser | Full |
| C68 Ignores and databases come from the config that applies to the lockfile | `readAllLockfiles` with configs on a heap | loop invariant: which heap cell belongs to which file | Full |
| C69 The JSON output can be read back | `encoding/json` output of reports | rendering and parsing are inverse; an independent reader | Full |
| C70 Advisories are read as written | decoding of advisories | typed decoder equals a relation on documents | Full |
| C71 Requests to the API and its responses | request and response of the API as text, endpoints | as C69 and C70; path lemmas | Partial: Requests, responses and endpoints are exact. A batch is taken as complete although the response says that it continues on another page (C71_counterexample: next_page_token is ignored). Query strings and hosts of the URL are not modelled. |
| C72 Command line | `flag.Parse` as a function from arguments to flags; `main` | induction on the arguments, both ways; the last option of each name by induction from the back; composed with C22 | Full |
| C73 CSV text is read as written | `encoding/csv`, from text to records | reader and grammar of CSV agree: induction on the grammar one way, on the text the other; composed with C37 | Full |
| C74 pom.xml as text | `encoding/xml` from text to a tree of elements, struct tags of the pom, `UnmarshalXML` | the grammar of XML by induction on documents; decoding loops against paths (`elementsAt`); composed with C49 | Full |
| C75 YAML files say what is read of them | decoding of YAML nodes into strings, structs, maps and lists, and the structs of the three files | shapes and paths on the tree (`YIsStruct`, `YAt`), one lemma per kind of decoder | Full |
| C76 TOML files say what is read of them | decoding of TOML values into strings, structs and lists, and the structs of the five files | shapes and paths on the tree (`TIsStruct`, `TAt`); composed with C57 | Full |
| C77 JSON texts, with and without comments | the JSON reader and `toJSON` as a state machine over the text | grammar of texts of a value with a layout (`JText`), JSON and JSON with comments being two layouts; soundness and completeness by induction over fuel and over the value | Full |
| C78 Every name in the table of parsers stands for its format | `parseFile`, the table of parsers | composition of the properties of the single formats with the selected entry of the table | Full |
| C79 Concurrent use of the cache of patterns is safe | `MustCompile` as steps of goroutines over a shared cache | invariant of all interleavings; a measure for termination | Full |
| C80 The text of the output | the text of every message (`Model/Output`) and the streams they go to | induction over the loops of the run against a separate description of the output; `Prints`: the run only prints | Full |
| C81 What an API server lists reaches the report | `World.FollowsAPI`: the checks of API databases of a run are those of `Model/Api`, any interleaving | composition of C13-C15 with the loop of the run; loading, use and failure of each database | Full |
| C82 Online runs use the archive that the server has now | `World.FollowsCache`: the archives of a run come from `fetchZip` after any history of loads | composition of C18 (what is in the cache after a history) with C66 | Full |
| C83 A crash is visible, and only three things cause one | `runP`: the functions of `main.go` again, stopping at the first panic with the reporter as it is | simulation: each fold that may stop either stops at a bad element or is the fold that never stops; then the causes are traced to the models of parsers, cache, comparison and API | Full |
| C84 Running the command again gives the same result | `run`, parsers, loading and API checks, twice | congruence of the run in the packages up to order; C38, C39; invariant of the goroutines | Partial: False in general: two packages of one name and version from different commits are listed in map order (C84_tie_counterexample), and map order can decide what a file is read as (C84_keys_counterexample); neither condition of C84_partial can be left out. The two runs use the same sort routine, as sort.Slice is deterministic. The text of the cause of an error is not part of an event; which of several API errors is returned does depend on the interleaving (C84_api_counterexample). |
| C85 An update rewrites the config and keeps what it says, but nothing else in the document | `encodeConfig`, `updatedText`, `updateFiles`: the struct as a tree of nodes, and the text on the disk | decoding inverts encoding; case analysis on the progress of the write | Partial: False in general: keys that the command does not know are lost (C85_counterexample). Proved for what the config says. Comments and layout are not part of the tree of nodes; the library must read back the trees it writes, which C102 proves for a model of it. |
| C86 A quiet run with exit code 0 has read every advisory | `zipDiags`, `walkDiags`, `fetchDiags`, `loadDiags`: the messages of a load | induction over the tree; invariant of the cache file over the history; the messages of a run as a list, then the end-to-end theorems | Partial: False in general: exit code 0 comes with skipped files (C86_counterexample). C86_quiet_partial and C86_default_partial are the property for runs without messages from databases. The text of a message and the order of messages of different files are as in the code; that a failed write of the cache is reported follows from the outcome of the write, which is an input. |
| C87 The file of a cached archive holds the archive, and says what it is taken for | `Cache.setField`, `decodeCache`, `encodeCache`, `cacheErr`, `Base64` | bits of base64 texts and of bytes, by induction over groups of four characters and three bytes (finite checks for one group); the fields by induction over the members of the object | Full |
| C88 Parsers say what they skip | `gradleDiags`, `mixDiags`, `yarnDiags`, `mavenDiags`, `parserDiags` | the messages as a list of outcomes over the lines (`Entries`) against the descriptions of entries of C44, C49, C51, C52; the regular expressions evaluated symbolically | Full |
| C89 What is written in a lockfile is checked before the exit code is 0 | `run`, `worldLoad`, `parseFile`, `runParserDiags` | one relation `Declares` for entries of all formats; a case per format from C78 that the parser finds the entry, then C66, C86 and C88 for the run | Full |
| C90 Reports are about what is written in the lockfiles | `run`, `readAllLockfiles`, `parseFile`, `worldLoad` | a relation `Legible` for the form of a file, a case per format from C78; the files of the results by C24 and C33; C66 for the advisories | Full |
| C91 Paths stand for the files that the operating system means by them | `Path.clean`, `Path.dir`, `Path.base`, `Path.join2`, `findLockfiles`, `findConfig`, `parseRequirementsAt` | a disk as an arbitrary graph with parents and the way an operating system follows a path; invariant of the loop of `Clean`: the stack leads to where the elements read so far lead | Partial: False for files that are included by an absolute path: `-r /x.txt` is looked up below the directory of the including file, see C91_counterexample. False also with links to directories, as paths are cleaned before they are opened: C91_links_counterexample. A path that stands for nothing may stand for a file once it is cleaned, so the converse of C91_clean is not claimed. |
| C92 Lockfiles that are read by lines | `Scanner.scan`, `parseYarnLock`, `parseMixLock`, `parseGradleLock`, `parseRequirementsTxt`, `isSpace` | an inductive relation between a text and its lines, by induction on the length of the text; the errors follow from the entries of C44, C51, C52 | Full |
| C93 URLs of local databases | `Url.parseRequest`, `Url.requestPath`, `RawDB.toConfig`, `newDirDB` | an inductive relation between a text and its spellings in a URL; unescaping inverts it by induction, the path of the URL follows, then C91 for the directory | Partial: False with two slashes: `file://advisories/npm` is read from the directory `npm`, see C93_counterexample; without a slash the current directory is read. Proved for the URLs of the documentation, with one and with three or more slashes. url.ParseRequestURI of the Go library is part of the model. |
| C94 Requests go to the URL of the API | `Url.parseRequest`, `Url.Request.string`, `bulkEndpoint`, `osvEndpoint` | the parts of a URL as a relation; parsing gives the parts, path.Join cleans the path to its elements, and escaping is a spelling of them | Partial: False if an element of the path contains a coded slash: `https://h/a%2Fb` becomes `https://h/a/b/querybatch`, see C94_counterexample. User information, addresses in brackets and coded characters in the host are outside the specification of the URLs, and IDs that are no names of path elements are in C71. |
| C95 go.mod files are read from their text | `ModFile.decode` (`Model/ModFile`), `Semver.*` | a grammar for lines, words, blocks and directives as relations; the lexer by lines, the parser on words of lines, one equivalence per directive; exactness, as no accepted word contains a line break | Full |
| C96 Semantic versions are compared by precedence | `Semantic.*` (`Model/Semantic`) | laws by combinators of lawful comparisons (composition, one after the other, lists, lists padded with zeros); precedence of SemVer 2.0 as a relation on versions and a relation between texts and versions | Full |
| C97 Everything that is written, in order, and on which stream | `Event.written`, `TextMsg.text`, `ErrMsg.text`, `run`, `listParsers` | A transcript is the list of written texts with their streams. The spec describes it from the flags and the environment only; each function of the command is shown to add its share (`Adds`), by induction on arguments, databases and files. | Full |
| C98 A TOML lockfile is read from its text whatever way it is written | `TomlText.read` (`Go/TomlText`) | a grammar of texts as relations (`Spec/TomlDoc`): statements of lines, and the tree of statements; strings and keys by induction on the derivation with fuel bounds, values by mutual induction, the tree by one-hole contexts that say which table the next statement fills; trees with a text characterised by writing every tree | Full |
| C99 The URL of a database is read as a request URI | `Url.parseRequest` (`Go/RequestURI`), `RawDB.toConfig` | a grammar of URIs (`Spec/RequestUri`), with a parameter for how texts are written in each kind of part: with decodable parts for acceptance, with spelled texts for the parts; reading proved once for both, the converse by cases on the parser | Full |

## Trusted base

1. The Lean 4 kernel, checking every module from its source.
2. The axioms listed below, which belong to Lean.
3. The reading of the Go code and of the Go standard library that the comments of the model record. It has not been checked by machine
   that the definitions agree with the Go program.
4. Everything that is a parameter of the model. Theorems hold for every value of a parameter that has the stated contract:

| Parameter | Stands for | Contract that theorems assume |
| --- | --- | --- |
| `Sorter` | `sort.Slice` | the result is a permutation, sorted if `less` is a strict weak order on the elements, and unchanged if the input is sorted; C107 proves this of the algorithm of Go's library (`Go/PdqSort.lean`) |
| `Sem` | `osv-scalibr/semantic`: comparison per ecosystem | `CmpLaws` (a total preorder), named in each theorem that needs it; proved for a model of the comparisons of semantic, NuGet and RubyGems versions (C96, C110, C111), of CRAN versions (C112), of Packagist versions on the texts that PHP knows (C114), of Maven versions with at most one qualifier (C115) and of PyPI versions (C108). The models were run on the fixtures in `/repo/generators/testdata` of these ecosystems (42313 comparisons, both generated by the tools of the ecosystems and written by hand) and differ in none; this is a test, not a proof |
| `canon` | parsing and printing of times | C106 gives it for texts of RFC 3339; for other texts (Go also takes `1:02:03` and a comma before the fraction) it is a parameter |
| `iter` | order of map iteration | the result is a permutation of the keys |
| `ParserEnv` | the file system, the readers of TOML and YAML from text to a tree (from there on they are modelled, C76 and C75; from the text in `Go/TomlText`, C98, and `Go/YamlScan`, C101), the decoder of go.mod (modelled from the text in `Model/ModFile`, C95), the orders of map iteration | none |
| `YamlCodec` | reading and writing of config files | decoding what was encoded gives the same fields |
| `LoadEnv.fetch`, `unzip`, `tree` | network, archive reader, directory tree | none; `fetch` is modelled in `ZipCache`, URLs in `Go/RequestURI` |
| `HttpOutcome` | what a server answers | none |
| `Env` | the rest of the outside of `run` | none |

5. Simplifications that change what is said, besides those named at each definition: strings are valid UTF-8, lower case is ASCII,
   colours are left out of printed text, output is a list of events and not of bytes except where a property is about the text
   (C58, C59, C69).

### Axioms of each theorem

From `#print axioms`. No theorem depends on any other axiom.

**none** (12 theorems): C01_different_versions, C10_not_transitive, C16_by_commit, C31_fragment_counterexample, C36_nothing_lost, C47_root, C48_selected_exists, C48_selected_unique, C48_applied_unique, C48_error, C68_unique, C87_written

**`propext`** (62 theorems): C11_length, C11_pure, C16_by_version, C16_empty, C16_batch, C17_unsupported, C18_download, C27_error_printed, C29_update_partial, C29_databases_partial, C29_crash_loses_databases, C29_crash_counterexample, C29_after_is_reached, C31_no_hash_partial, C31_loaded_partial, C36_config, C37_record, C39_renv, C39_maven, C39_pnpm_partial, C39_npm_counterexample, C39_nuget_counterexample, C39_go_counterexample, C39_pnpm_counterexample, C42_other_operators, C44_unique, C49_error, C50_unreadable, C51_errors, C52_error_empty, C53_nested, C53_build, C53_empty, C53_error, C56_npm_counterexample, C56_bun_counterexample, C56_pnpm_counterexample, C57_cargo, C57_poetry, C57_pdm, C57_pylock, C57_pubspec, C57_error, C63_not_modified_without_cache, C64_error, C67_formats, C70_other, C73_line_ends, C75_pubspec_nothing, C75_config_nothing, C76_case_counterexample, C79_stable, C79_progress, C80_offline, C85_codec, C85_refines_none, C87_other, C93_counterexample, C96_ecosystems, C101_not_null, C101_comments, C114_counterexample

**`Quot.sound`, `propext`** (196 theorems): C07_explicit_version, C07_versionless, C07_empty_entries, C07_only_matching_entries, C08_any_range_partial, C08_union_partial, C08_only_matching_ranges, C09_normalized_name, C09_idempotent, C09_same_name_iff, C09_other_verbatim, C10_ecosystem_match, C10_reflexive, C10_symmetric, C10_with_suffixes, C10_affects_ecosystem, C11_positional, C13_total, C14_batch_ok_iff, C15_one_request_per_id, C17_api_guards, C17_identity, C18_offline, C18_offline_exact, C18_not_modified, C18_ok_cases, C18_panic_iff, C19_crash, C19_prefix, C19_history, C20_exact_partial, C20_directory_partial, C20_prefix, C21_diagnostics, C22_unlistable_directory, C22_database_diagnostics, C23_exit_code, C23_failures, C23_information, C23_codes, C24_results, C24_no_results, C24_text, C25_no_duplicates, C25_sound, C25_complete, C26_split, C26_merge_independent, C26_monotone, C27_report, C29_files_partial, C30_unique, C30_firsts, C30_run, C31_iff, C32_exact_partial, C32_shared_config_counterexample, C32_hidden_vulnerability, C33_split, C33_parsed, C34_arguments_in_order, C34_no_descent, C34_errors, C35_precedence, C35_explicit_config, C39_pubspec, C39_bun, C39_counterexample, C39_pipenv_counterexample, C40_terminates, C40_stable, C42_entry, C42_normal_form, C42_advisory_name, C42_marker_counterexample, C42_extras_counterexample, C44_blocks, C44_errors, C45_names, C45_unique, C46_adds, C46_sound, C46_panic_iff, C46_partial, C47_adds, C47_no_panic, C47_sound, C47_partial, C47_iff, C48_counterexample, C49_names, C49_version_unique, C49_one_effective, C49_counterexample, C49_newline_counterexample, C49_text_counterexample, C50_unique, C50_lines_unique, C50_commit_counterexample, C52_entries, C52_unique, C52_written, C53_invalid_iff, C53_panic_iff, C53_refused, C54_heads, C54_counterexample, C56_composer_iff, C56_renv_iff, C56_nuget_iff, C56_npm_iff, C56_pipenv_iff, C56_bun_iff, C56_yarn, C56_counterexample, C56_pipenv_counterexample, C57_renv, C57_unique, C58_link, C59_counts, C59_lines, C60_collect, C61_non_interference, C61_silent, C63_no_crash_partial, C63_iff, C63_offline, C65_panic_iff, C65_partial, C65_exact_iff, C65_error, C65_counterexample, C65_collision_counterexample, C62_partial, C67_ecosystem, C67_listed, C67_unknown, C68_own_databases, C70_roundtrip, C71_request, C71_counterexample, C71_endpoints, C75_pnpm_nothing, C76_cargo_accepted, C76_poetry_accepted, C76_pdm_accepted, C76_uv_accepted, C76_pylock_accepted, C77_plain, C77_json_jsonc, C78_no_toml, C78_renv, C78_pipenv, C78_npm_v1, C78_npm_v2, C78_npm_v2_exact, C78_no_yaml, C78_gradle, C79_right_pattern, C79_same_object, C79_different_objects, C79_panics, C79_terminates, C80_json_stderr, C82_current, C82_sent_before, C84_api_counterexample, C84_world_orders, C84_world_keys, C84_tie_counterexample, C84_keys_counterexample, C84_order_counterexample, C85_again, C85_refines, C85_counterexample, C86_archive, C86_cache, C86_cache_write, C86_warnings, C86_counterexample, C87_base64_written, C88_gradle, C88_yarn, C88_others, C88_table, C88_text, C91_links_counterexample, C94_counterexample, C98_integers, C98_writable, C103_elsewhere, C107_fixed, C107_small, C107_unstable, C111_counterexample, C111_canonical

**`Classical.choice`, `Quot.sound`, `propext`** (433 theorems): C01_range_intervals, C01_event_order_irrelevant, C01_is_affected, C01_ties_are_order_dependent, C02_refines_pure_partial, C02_history_independent_partial, C02_same_order_ties_allowed_partial, C02_mixed_orders_with_ties_interfere, C02_counterexample, C03_sound, C03_complete_partial, C03_end_to_end_partial, C03_suffix_finds_nothing, C03_suffixed_ecosystem_never_matches, C03_counterexample, C04_no_duplicates, C04_ids_nodup, C05_filter_transparent, C05_check_transparent, C06_never_reported, C06_never_suppresses, C08_exact, C08_git_range_hides_others, C08_counterexample, C11_aligned, C12_listing, C12_order_independent, C13_concat, C13_sizes, C13_block, C13_positions, C14_any_failure_fails, C14_no_failure_succeeds, C14_aligned, C14_terminates, C15_details, C15_answered, C20_sibling_directory, C21_exact_partial, C21_fails_iff, C21_vanishing_entry, C22_exit_zero_partial, C23_exit_128, C24_json, C26_run, C27_keeps_results, C28_written, C28_converges, C32_checked_partial, C33_found, C33_run, C34_directory, C34_listing_order, C34_exact, C34_run, C35_broken_config_fails, C36_type, C36_kept, C36_dropped, C37_accepted, C37_row, C38_sorted, C38_csv, C38_deterministic, C39_npm_partial, C39_npm_iff, C39_nuget_partial, C39_pipenv_partial, C39_go_partial, C39_pnpm_iff, C39_requirements, C39_nuget_keys_partial, C39_nuget_iff, C39_pipenv_keys_partial, C39_pipenv_iff, C39_go_keys_partial, C39_go_iff, C39_table_partial, C41_sound, C41_failure, C41_exact_partial, C41_exact_iff, C41_keys, C41_counterexample, C42_written_partial, C43_continuation, C43_joined, C43_end_of_file, C43_comment, C43_file, C44_packages, C44_version_unique, C44_written, C46_kinds, C46_counterexample, C47_counterexample, C48_applied, C48_partial, C48_unrequired, C49_version_exists, C49_lower, C49_rule, C49_reported, C49_partial, C50_entries, C50_written_partial, C51_entries, C51_unique, C51_written, C52_errors, C53_counterexample, C53_loop, C53_partial, C53_key, C53_commit, C53_rule, C53_trichotomy, C53_rule_unique, C53_reported, C54_forms, C54_partial, C54_panic_iff, C54_untyped, C55_forms, C55_only, C55_host_fragment, C55_host_ref, C55_registry_partial, C55_registry_counterexample, C55_plain, C55_named, C55_git_hosts, C55_other_hosts, C55_bad_user, C55_control, C56_pnpm, C56_pubspec, C56_gemfile, C56_partial, C57_uv, C57_composer, C58_counterexample, C58_truncate, C58_partial, C58_iff, C58_total, C58_bounded, C58_exactly_limit, C59_summary, C59_number, C60_ecosystems, C60_order_independent, C60_package_order, C61_exit, C64_sound, C64_partial, C64_exact_iff, C64_version, C64_counterexample, C62_unparsable_iff, C62_supported_iff, C62_counterexample, C66_clean_exit_partial, C66_default_partial, C66_reported_partial, C66_counterexample, C68_own_ignores, C69_reports, C69_packages, C69_printed, C70_decoded, C70_zip, C70_dir, C71_response, C71_results_partial, C72_accepted, C72_help, C72_rejected, C72_started, C72_misplaced, C73_read, C73_unambiguous, C73_rows, C73_accepted, C73_packages, C73_round_trip, C74_read, C74_unambiguous, C74_names, C74_elsewhere, C74_reported, C74_packages, C75_pnpm_accepted, C75_pnpm_read, C75_pubspec_accepted, C75_pubspec_read, C75_config_accepted, C75_config_read, C75_config_load, C76_cargo_read, C76_poetry_read, C76_pdm_read, C76_uv_read, C76_pylock_read, C77_json, C77_unambiguous, C77_jsonc, C77_bun, C77_others, C77_rejected, C78_bun, C78_cargo, C78_poetry, C78_pdm, C78_uv, C78_pylock, C78_composer, C78_nuget, C78_no_json, C78_pnpm, C78_pnpm_rule, C78_pnpm_bad, C78_pubspec, C78_pubspec_bad, C78_pom, C78_pom_reported, C78_go, C78_gemfile, C78_yarn, C78_mix, C78_requirements, C78_unreadable, C80_json, C80_text, C80_silent, C80_version, C80_ecosystems, C80_nothing, C80_counts, C81_check, C81_exit_zero, C81_use_api, C81_complete, C81_sound, C82_clean_exit, C83_crash_iff, C83_refines, C83_after_crash, C83_codes, C83_exit_zero, C83_world_iff, C83_parsers, C83_world_safe, C83_clean_exit_partial, C84_order_partial, C84_partial, C84_api_partial, C84_world_same, C84_counterexample, C85_encode, C85_partial, C85_nothing, C86_directory, C86_load, C86_load_quiet, C86_check, C86_quiet_partial, C86_checked_partial, C86_default_partial, C87_base64_read, C87_document, C87_read, C87_message, C87_offline, C87_unchanged, C88_mix, C88_maven, C88_gradle_quiet, C88_mix_quiet, C88_yarn_quiet, C88_maven_quiet, C89_parsed, C89_clean, C89_reported, C89_quiet, C89_nothing_skipped, C90_written, C90_source, C90_packages, C90_reported, C91_clean, C91_shortest, C91_found, C91_config, C91_ignored, C91_given_config, C91_requirements_partial, C91_counterexample, C92_lines, C92_unique, C92_too_long, C92_yarn, C92_mix, C92_gradle, C92_errors, C92_reads, C92_requirements, C92_space, C93_config, C93_local, C93_loads, C93_slashes_partial, C94_queries_partial, C94_advisories_partial, C94_distinct_partial, C95_text, C95_unique, C95_packages, C95_applied, C95_error, C96_semver_laws, C96_nuget_laws, C96_rubygems_laws, C96_precedence, C96_unique, C96_range, C96_hyphen_numbers, C96_long, C96_long_release, C97_started, C97_streams, C97_parsers, C97_unknown_parser, C97_no_paths, C97_bad_config, C97_information, C97_number, C98_read, C98_unique, C98_cargo, C98_poetry, C98_pdm, C98_uv, C98_pylock, C99_accepted, C99_parts, C99_unique, C99_texts, C99_config, C99_dropped, C100_queries_partial, C100_advisories_partial, C100_path_partial, C100_rest_partial, C100_counterexample, C101_read, C101_unique, C101_library, C101_config, C101_nothing, C101_pnpm, C101_pubspec, C102_written, C102_styles, C102_read_back, C102_injective, C102_update, C102_file, C103_left, C103_load, C103_ignores_partial, C103_databases_partial, C103_other_partial, C103_counterexample, C104_readers, C104_declares, C104_excused, C104_every, C104_clean, C104_reported, C105_read, C105_unique, C105_nine, C105_exact, C105_pnpm, C105_bun, C105_json, C105_json_short, C105_rounded, C106_unique, C106_time, C106_other, C106_one, C106_fixed, C106_same, C106_again, C106_roundtrip, C107_perm, C107_sorted, C107_unique, C107_ranges, C108_laws, C108_order, C108_unique, C108_others, C108_range, C109_affected, C109_clean, C109_reported, C109_justified, C109_readers, C110_counterexample, C110_order_partial, C110_range_partial, C111_laws, C111_order_partial, C111_range_partial, C112_laws, C112_order, C112_range, C113_range, C113_affected, C114_order, C114_laws_partial, C114_range, C114_affected, C115_counterexample, C115_order, C115_dotted, C115_trailing, C115_laws_partial, C115_range, C115_affected

### Which code is modelled

Every function of the repository outside tests, with the definitions that cite its lines. `Model.X.d` is `d` in `lean/Verif/Model/X.lean`.

| Function | Lines | Definitions |
| --- | --- | --- |
| `MustCompile` | `internal/cachedregexp/regex.go:11-18` | `RegexCache.CacheReach`, `RegexCache.CallState` |
| `rawDatabaseConfig.inferDBType` | `internal/configer/load.go:35-48` | `Config.RawDB.inferType` |
| `rawDatabaseConfig.toConfig` | `internal/configer/load.go:50-76` | `Config.RawDB.toConfig` |
| `newConfig` | `internal/configer/load.go:78-98` | `Config.newConfig`, `Config.newConfigStep`, `Main.printDropped`, `Output.ErrMsg.text` |
| `Find` | `internal/configer/load.go:101-131` | `Config.findConfig` |
| `load` | `internal/configer/load.go:133-153` | `Config.loadRaw`, `YamlFiles.configDecode`, `YamlFiles.configFiles` |
| `Load` | `internal/configer/load.go:155-163` | `Config.loadConfig` |
| `UpdateWithIgnores` | `internal/configer/update.go:10-34` | `Config.updateWithIgnores`, `ConfigText.ContentDuring`, `ConfigText.contentAfter`, `ConfigWrite.updateFiles`, `ConfigWrite.updatedText`, `ConfigYaml.configLines`, `ConfigYaml.writeConfig` |
| `Report.HasKnownVulnerabilities` | `internal/reporter/report.go:27-29` | `Report.Report.hasKnown` |
| `Report.countKnownVulnerabilities` | `internal/reporter/report.go:31-39` | `Report.Report.countKnown` |
| `Report.HasIgnoredVulnerabilities` | `internal/reporter/report.go:41-43` | `Report.Report.hasIgnored` |
| `Report.countIgnoredVulnerabilities` | `internal/reporter/report.go:45-53` | `Report.Report.countIgnored` |
| `Report.formatLineByLine` | `internal/reporter/report.go:55-79` | `Report.PkgReport.lines`, `Report.Report.formatLineByLine` |
| `Form` | `internal/reporter/report.go:81-87` | `Report.form` |
| `Report.describeIgnores` | `internal/reporter/report.go:89-101` | `Report.Report.describeIgnores` |
| `Report.String` | `internal/reporter/report.go:103-135` | `Report.Report.text` |
| `New` | `internal/reporter/reporter.go:23-30` | `ReportJson.PrintedJSON` |
| `Reporter.PrintErrorf` | `internal/reporter/reporter.go:38-42` | `Main.RState.printError` |
| `Reporter.PrintTextf` | `internal/reporter/reporter.go:49-57` | `Main.RState.printText` |
| `Reporter.PrintResult` | `internal/reporter/reporter.go:63-71` | `Main.RState.printResult` |
| `Reporter.PrintJSONResults` | `internal/reporter/reporter.go:75-87` | `Main.RState.printJSON`, `ReportJson.PrintedJSON` |
| `Reporter.PrintDatabaseLoadErr` | `internal/reporter/reporter.go:89-97` | `Output.ErrMsg.text`, `Output.loadErrText` |
| `Reporter.PrintKnownEcosystems` | `internal/reporter/reporter.go:99-107` | `Main.printKnownEcosystems`, `Output.TextMsg.text` |
| `makeAPIDBConfig` | `main.go:31-37` | `Main.apiDBConfig` |
| `makeEcosystemDBConfig` | `main.go:39-45` | `Main.ecosystemDBConfig` |
| `OSVDatabases.transposePkgResults` | `main.go:49-80` | `Crash.checkLockfileP`, `Main.mergeStep`, `Main.transposePkgResults` |
| `OSVDatabases.check` | `main.go:82-114` | `Crash.checkLockfileP`, `Crash.checkStepP`, `Main.checkAll`, `Main.checkLockfile`, `Main.checkStep`, `Output.ErrMsg.text` |
| `OSVDatabases.forConfigs` | `main.go:118-130` | `Main.forConfigs` |
| `uniqueDBConfigs` | `main.go:132-158` | `Main.addDBConfig`, `Main.uniqueDBConfigs` |
| `describeDB` | `main.go:160-184` | `Main.DBInfo`, `Output.describeDB`, `World.DBKind.info` |
| `loadDatabases` | `main.go:186-232` | `Crash.loadDatabasesP`, `Crash.loadStepP`, `Main.loadDatabases`, `Main.loadStep`, `Output.TextMsg.text`, `Output.describeInParens` |
| `findLockfiles` | `main.go:237-276` | `Main.findLockfiles`, `Output.ErrMsg.text` |
| `findAllLockfiles` | `main.go:278-306` | `Main.findAllLockfiles`, `Main.findStep` |
| `parseLockfile` | `main.go:308-337` | `Crash.calledParser`, `Main.parseLockfile`, `ParserDiags.runParserDiags` |
| `stringsFlag.Set` | `main.go:345-349` | `Cli.valueFlags` |
| `lockfileAndConfigOrErrs.getConfigs` | `main.go:359-371` | `Main.getConfigs` |
| `lockfileAndConfigOrErrs.adjustExtraDatabases` | `main.go:373-406` | `Main.adjustExtraDatabases`, `Main.adjustStep` |
| `parseLockfilePathWithParseAs` | `main.go:408-420` | `Main.splitParseAs` |
| `readAllLockfiles` | `main.go:422-465` | `Crash.readAllLockfilesP`, `Crash.readStepP`, `Main.readAllLockfiles`, `Main.readStep`, `ParserDiags.runParserDiags` |
| `collectEcosystems` | `main.go:467-497` | `Main.addEcosystem`, `Main.collectEcosystems` |
| `run` | `main.go:499-741` | `Cli.boolFlags`, `Cli.defaultFlags`, `Cli.valueFlags`, `Crash.loopStepP`, `Crash.prepareP`, `Crash.runBodyP`, `Crash.runP`, `Main.Flags`, `Main.allPackageNames`, `Main.badParseAs`, `Main.finish`, `Main.ignoresFor`, `Main.loopStep`, `Main.prepare`, `Main.printParsers`, `Main.printUsingConfig`, `Main.reportIds`, `Main.run`, `Main.runBody`, `Main.startConfig`, `Output.ErrMsg.text`, `Output.TextMsg.text`, `Output.describeInParens` |
| `writeUpdatedConfigs` | `main.go:743-781` | `Main.newIgnores`, `Main.writeUpdatedConfigs`, `Output.ErrMsg.text`, `Output.Event.isUpdate`, `Output.TextMsg.text`, `Output.streamText`, `Output.updatedLine` |
| `main` | `main.go:783-785` | `Cli.mainExit`, `Crash.runP` |
| `APIDB.buildAPIPayload` | `pkg/database/api-check.go:18-31` | `Api.buildAPIPayload` |
| `APIDB.bulkEndpoint` | `pkg/database/api-check.go:33-39` | `ApiJson.bulkPath`, `ApiUrl.bulkEndpoint` |
| `APIDB.checkBatch` | `pkg/database/api-check.go:53-144` | `Api.checkBatch`, `ApiJson.batchBody`, `ApiJson.decBatch`, `ApiJson.decBatchResult`, `ApiJson.unmarshalBatch` |
| `batchPkgs` | `pkg/database/api-check.go:146-160` | `Api.batchLoop`, `Api.batchPkgs` |
| `findOrDefault` | `pkg/database/api-check.go:162-170` | `Api.findOrDefault` |
| `APIDB.Check` | `pkg/database/api-check.go:172-241` | `Api.APICheck`, `Api.ApiEnv.batchTask`, `Api.bareResults`, `Api.idsToFetch` |
| `APIDB.FetchAll` | `pkg/database/api-fetch-all.go:9-37` | `Api.ApiEnv.fetchTask`, `Api.FetchAll`, `Api.lessID` |
| `APIDB.osvEndpoint` | `pkg/database/api-fetch.go:12-18` | `ApiJson.vulnPath`, `ApiUrl.osvEndpoint` |
| `APIDB.Fetch` | `pkg/database/api-fetch.go:21-79` | `Api.apiFetch`, `OsvJson.unmarshalOSV` |
| `NewAPIDB` | `pkg/database/api.go:33-54` | `Diagnostics.loadDiags`, `Load.newAPIDB` |
| `Config.Identifier` | `pkg/database/config.go:17-25` | `Load.DBConfig.identifier` |
| `Load` | `pkg/database/config.go:30-41` | `Diagnostics.loadDiags`, `Load.loadDB`, `World.worldLoad` |
| `DirDB.load` | `pkg/database/dir.go:31-95` | `Diagnostics.visitDiags`, `Diagnostics.walkDiags`, `Load.newDirDB`, `Load.walkNode`, `Load.walkVisit`, `OsvJson.unmarshalOSV`, `World.walkAdvisories` |
| `NewDirDB` | `pkg/database/dir.go:97-110` | `Load.newDirDB` |
| `memDB.addVulnerability` | `pkg/database/mem-check.go:14-33` | `MemDB.Affected.key`, `MemDB.MemDB.addVulnerability`, `MemDB.addUnder`, `MemHeap.addIndex` |
| `memDB.Vulnerabilities` | `pkg/database/mem-check.go:35-53` | `MemDB.MemDB.list`, `MemDB.listVulns` |
| `memDB.VulnerabilitiesAffectingPackage` | `pkg/database/mem-check.go:55-69` | `MemDB.MemDB.vulnerabilitiesAffectingPackage`, `MemDB.PackageDetails.key`, `MemDB.collectAffecting`, `MemHeap.HeapDB.affecting`, `MemHeap.HeapDB.affectingDiags`, `MemHeap.collectDiags`, `MemHeap.collectStepM`, `OsvPanic.HeapDB.affectingP`, `OsvPanic.collectP`, `OsvPanic.collectStepP` |
| `memDB.Check` | `pkg/database/mem-check.go:71-79` | `MemDB.MemDB.check`, `MemHeap.HeapDB.check`, `MemHeap.HeapDB.checkDiags`, `OsvPanic.HeapDB.checkP`, `World.HeapDB.answer`, `WorldCrash.World.FollowsComparison` |
| `Package.NormalizedEcosystem` | `pkg/database/osv.go:35-39` | `Osv.Package.normalizedEcosystem` |
| `Package.NormalizedName` | `pkg/database/osv.go:49-58` | `Osv.Package.normalizedName`, `Osv.reNameSeparators` |
| `RangeEvent.version` | `pkg/database/osv.go:71-85` | `Osv.RangeEvent.version` |
| `AffectsRange.containsVersion` | `pkg/database/osv.go:87-133` | `MemHeap.AffectsRange.containsVersionM`, `Osv.AffectsRange.containsVersion`, `Osv.AffectsRange.versioned`, `Osv.eventLess`, `Osv.eventStep`, `Osv.eventsContain`, `OsvPanic.AffectsRange.containsVersionP`, `OsvPanic.eventLessP` |
| `Affects.affectsVersion` | `pkg/database/osv.go:139-150` | `MemHeap.affectsVersionM`, `Osv.AffectsRange.versioned`, `Osv.affectsVersion`, `OsvPanic.affectsVersionP` |
| `Versions.MarshalJSON` | `pkg/database/osv.go:161-173` | `OsvJson.encVersions` |
| `OSV.isAliasOf` | `pkg/database/osv.go:193-201` | `Osv.OSV.isAliasOf` |
| `OSV.AffectsEcosystem` | `pkg/database/osv.go:203-211` | `Osv.OSV.affectsEcosystem` |
| `truncate` | `pkg/database/osv.go:218-241` | `Describe.truncate`, `Describe.truncateLoop` |
| `OSV.Describe` | `pkg/database/osv.go:243-259` | `Describe.OSV.describe` |
| `OSV.Link` | `pkg/database/osv.go:263-269` | `Describe.OSV.link` |
| `areEcosystemsEqual` | `pkg/database/osv.go:271-282` | `Osv.areEcosystemsEqual` |
| `OSV.IsAffected` | `pkg/database/osv.go:284-313` | `MemHeap.Affected.matchesPkgM`, `MemHeap.Affected.unbounded`, `MemHeap.entriesDiags`, `MemHeap.matchEntriesM`, `Osv.Affected.matchesPkg`, `Osv.OSV.isAffected`, `OsvPanic.Affected.matchesPkgP`, `OsvPanic.matchEntriesP` |
| `Vulnerabilities.Unique` | `pkg/database/vulnerabilities.go:10-20` | `Osv.uniqueVulns` |
| `Vulnerabilities.Includes` | `pkg/database/vulnerabilities.go:22-37` | `Osv.includesVuln` |
| `Vulnerabilities.MarshalJSON` | `pkg/database/vulnerabilities.go:41-55` | `OsvJson.EncVulns` |
| `ZipDB.cachePath` | `pkg/database/zip.go:44-49` | `WorldCache.ArchiveLoads.trace`, `ZipCache.fetchZip` |
| `ZipDB.fetchZip` | `pkg/database/zip.go:51-128` | `Diagnostics.cacheErr`, `Diagnostics.fetchDiags`, `Diagnostics.readDiags`, `ZipCache.decodeCache`, `ZipCache.encodeCache`, `ZipCache.fetchZip`, `ZipCache.readCache`, `ZipCache.writeFile` |
| `mightAffectPackages` | `pkg/database/zip.go:130-138` | `MemDB.mightAffectPackages` |
| `ZipDB.loadZipFile` | `pkg/database/zip.go:142-167` | `Diagnostics.zipFileDiags`, `Load.loadZipFile`, `OsvJson.unmarshalOSV`, `World.zipAdvisories` |
| `ZipDB.load` | `pkg/database/zip.go:175-203` | `Diagnostics.zipDiags`, `Load.loadZipEntries`, `Load.newZippedDB`, `World.zipAdvisories` |
| `NewZippedDB` | `pkg/database/zip.go:205-218` | `Load.newZippedDB` |
| `fromCSVRecord` | `pkg/lockfile/csv.go:17-52` | `Csv.fromCSVRecord` |
| `fromCSV` | `pkg/lockfile/csv.go:54-87` | `Csv.csvLoop`, `Csv.fromCSV`, `Csv.pkgLess` |
| `FromCSVRows` | `pkg/lockfile/csv.go:89-97` | `CsvText.Env.withCsv`, `Main.parseLockfile` |
| `FromCSVFile` | `pkg/lockfile/csv.go:99-117` | `CsvText.Env.withCsv`, `Main.parseLockfile` |
| `KnownEcosystems` | `pkg/lockfile/ecosystems.go:3-17` | `Main.knownEcosystems` |
| `structurePackageDetails` | `pkg/lockfile/parse-bun-lock.go:21-49` | `LockBun.structurePackageDetails` |
| `ParseBunLock` | `pkg/lockfile/parse-bun-lock.go:51-85` | `LockBun.bunLoop`, `LockBun.parseBunLock` |
| `ParseCargoLock` | `pkg/lockfile/parse-cargo-lock.go:22-49` | `LockToml.parseCargoLock`, `TomlFiles.cargoDecode` |
| `extractCommit` | `pkg/lockfile/parse-composer-lock.go:25-34` | `LockComposer.extractComposerCommit` |
| `ParseComposerLock` | `pkg/lockfile/parse-composer-lock.go:36-79` | `LockComposer.composerDetails`, `LockComposer.parseComposerLock` |
| `isSourceSection` | `pkg/lockfile/parse-gemfile-lock.go:31-36` | `LockGemfile.isSourceSection` |
| `gemfileLockfileParser.addDependency` | `pkg/lockfile/parse-gemfile-lock.go:48-56` | `LockGemfile.GemParser.addDependency` |
| `gemfileLockfileParser.parseSpec` | `pkg/lockfile/parse-gemfile-lock.go:58-77` | `LockGemfile.GemParser.parseSpec`, `LockGemfile.reGemSpec`, `LockGemfile.reGemTail` |
| `gemfileLockfileParser.parseSource` | `pkg/lockfile/parse-gemfile-lock.go:79-106` | `LockGemfile.GemParser.parseSource`, `LockGemfile.reGemOption` |
| `isNotIndented` | `pkg/lockfile/parse-gemfile-lock.go:108-112` | `LockGemfile.isNotIndented`, `LockGemfile.reGemIndent` |
| `gemfileLockfileParser.parseLineBasedOnState` | `pkg/lockfile/parse-gemfile-lock.go:114-128` | `LockGemfile.GemParser.parseLineBasedOnState` |
| `gemfileLockfileParser.parse` | `pkg/lockfile/parse-gemfile-lock.go:130-165` | `LockGemfile.gemParse`, `LockGemfile.gemStep`, `LockGemfile.reGemLines` |
| `ParseGemfileLock` | `pkg/lockfile/parse-gemfile-lock.go:167-179` | `LockGemfile.parseGemfileLock` |
| `deduplicatePackages` | `pkg/lockfile/parse-go-lock.go:13-21` | `LockGoMod.deduplicatePackages` |
| `ParseGoLock` | `pkg/lockfile/parse-go-lock.go:23-79` | `LockGoMod.goReplaceLoop`, `LockGoMod.goReplacements`, `LockGoMod.goRequireLoop`, `LockGoMod.parseGoLock`, `ModFile.decode` |
| `isNotGradleDependencyLine` | `pkg/lockfile/parse-gradle-lock.go:10-12` | `LockGradle.isNotGradleLine` |
| `parseGradleLine` | `pkg/lockfile/parse-gradle-lock.go:14-29` | `LockGradle.parseGradleLine` |
| `ParseGradleLock` | `pkg/lockfile/parse-gradle-lock.go:31-64` | `LockGradle.gradleStep`, `LockGradle.parseGradleLock`, `ParserDiags.ParseDiag.text`, `ParserDiags.gradleDiag`, `ParserDiags.gradleDiags` |
| `MavenLockDependency.parseResolvedVersion` | `pkg/lockfile/parse-maven-lock.go:18-28` | `LockMaven.mavenParseResolvedVersion` |
| `MavenLockDependency.resolveVersionValue` | `pkg/lockfile/parse-maven-lock.go:30-51` | `LockMaven.mavenResolveVersionValue`, `ParserDiags.ParseDiag.text`, `ParserDiags.mavenDiag` |
| `MavenLockDependency.ResolveVersion` | `pkg/lockfile/parse-maven-lock.go:53-57` | `LockMaven.mavenResolveVersion` |
| `MavenLockProperties.UnmarshalXML` | `pkg/lockfile/parse-maven-lock.go:73-99` | `PomXml.xmlProperties` |
| `ParseMavenLock` | `pkg/lockfile/parse-maven-lock.go:101-142` | `LockMaven.mavenLoop`, `LockMaven.parseMavenLock`, `ParserDiags.mavenDiags`, `PomXml.xmlDecodePom` |
| `ParseMixLock` | `pkg/lockfile/parse-mix-lock.go:14-78` | `LockMix.mixStep`, `LockMix.parseMixLock`, `LockMix.reMixLine`, `LockMix.unquoteMix`, `ParserDiags.ParseDiag.text`, `ParserDiags.mixDiag`, `ParserDiags.mixDiags` |
| `pkgDetailsMapToSlice` | `pkg/lockfile/parse-npm-lock.go:34-42` | `LockNpm.parseNpmLock` |
| `mergePkgDetailsMap` | `pkg/lockfile/parse-npm-lock.go:44-51` | `LockNpm.mergeDetails` |
| `parseNpmLockDependencies` | `pkg/lockfile/parse-npm-lock.go:53-98` | `LockNpm.npmDepStep`, `LockNpm.npmDependency`, `LockNpm.npmDepsLoop` |
| `extractNpmPackageName` | `pkg/lockfile/parse-npm-lock.go:100-109` | `LockNpm.extractNpmPackageName` |
| `parseNpmLockPackages` | `pkg/lockfile/parse-npm-lock.go:111-144` | `LockNpm.npmPackage`, `LockNpm.npmPackagesLoop` |
| `parseNpmLock` | `pkg/lockfile/parse-npm-lock.go:146-152` | `LockNpm.parseNpmLockfile` |
| `ParseNpmLock` | `pkg/lockfile/parse-npm-lock.go:154-170` | `LockNpm.parseNpmLock` |
| `parseNuGetLockDependencies` | `pkg/lockfile/parse-nuget-lock.go:23-36` | `LockNuGet.nugetDepsLoop` |
| `parseNuGetLock` | `pkg/lockfile/parse-nuget-lock.go:38-49` | `LockNuGet.nugetLoop` |
| `ParseNuGetLock` | `pkg/lockfile/parse-nuget-lock.go:53-73` | `LockNuGet.parseNuGetLock` |
| `ParsePdmLock` | `pkg/lockfile/parse-pdm-lock.go:24-57` | `LockToml.parsePdmLock`, `LockToml.pdmDetails`, `TomlFiles.pdmDecode` |
| `ParsePipenvLock` | `pkg/lockfile/parse-pipenv-lock.go:20-68` | `LockPipenv.parsePipenvLock`, `LockPipenv.pipenvLoop` |
| `PnpmLockfile.UnmarshalYAML` | `pkg/lockfile/parse-pnpm-lock.go:39-56` | `ParseFloat.pnpmNineWith`, `YamlFiles.yamlPnpm` |
| `startsWithNumber` | `pkg/lockfile/parse-pnpm-lock.go:60-64` | `LockPnpm.startsWithNumber` |
| `extractPnpmPackageNameAndVersion` | `pkg/lockfile/parse-pnpm-lock.go:68-127` | `LockPnpm.extractPnpm` |
| `parseNameAtVersion` | `pkg/lockfile/parse-pnpm-lock.go:129-138` | `LockPnpm.parseNameAtVersion`, `LockPnpm.rePnpmNameAtVersion` |
| `parsePnpmLock` | `pkg/lockfile/parse-pnpm-lock.go:140-187` | `LockPnpm.pnpmCommit`, `LockPnpm.pnpmLoop` |
| `ParsePnpmLock` | `pkg/lockfile/parse-pnpm-lock.go:189-216` | `LockPnpm.parsePnpmLock`, `YamlFiles.pnpmDecode` |
| `ParsePoetryLock` | `pkg/lockfile/parse-poetry-lock.go:28-56` | `LockToml.parsePoetryLock`, `TomlFiles.poetryDecode` |
| `PubspecLockDescription.UnmarshalYAML` | `pkg/lockfile/parse-pubspec-lock.go:17-47` | `LockPubspec.PubspecNode.decode`, `YamlFiles.yamlDescribed`, `YamlFiles.yamlDescription` |
| `ParsePubspecLock` | `pkg/lockfile/parse-pubspec-lock.go:62-93` | `LockPubspec.parsePubspecLock`, `YamlFiles.pubspecDecode` |
| `ParsePylock` | `pkg/lockfile/parse-pylock.go:33-71` | `LockToml.parsePylock`, `LockToml.pylockStep`, `TomlFiles.pylockDecode` |
| `ParseRenvLock` | `pkg/lockfile/parse-renv-lock.go:21-54` | `LockRenv.parseRenvLock`, `LockRenv.renvLoop` |
| `parseLine` | `pkg/lockfile/parse-requirements-txt.go:18-55` | `LockPip.parseRequirement`, `LockPip.reqConstraint` |
| `normalizedRequirementName` | `pkg/lockfile/parse-requirements-txt.go:68-75` | `LockPip.normalizedRequirementName` |
| `removeComments` | `pkg/lockfile/parse-requirements-txt.go:77-81` | `LockPip.reComment`, `LockPip.removeComments` |
| `isNotRequirementLine` | `pkg/lockfile/parse-requirements-txt.go:83-93` | `LockPip.isNotRequirementLine` |
| `isLineContinuation` | `pkg/lockfile/parse-requirements-txt.go:95-101` | `LockPip.isLineContinuation`, `LockPip.reContinuation` |
| `ParseRequirementsTxt` | `pkg/lockfile/parse-requirements-txt.go:103-105` | `LockPip.parseRequirementsTxt` |
| `parseRequirementsTxt` | `pkg/lockfile/parse-requirements-txt.go:107-166` | `LockPip.continueAtEnd`, `LockPip.joinLines`, `LockPip.joinLinesFrom`, `LockPip.parseRequirementsAt`, `LockPip.reqLoop` |
| `ParseUvLock` | `pkg/lockfile/parse-uv-lock.go:37-72` | `LockToml.parseUvLock`, `LockToml.uvStep`, `TomlFiles.uvDecode` |
| `shouldSkipYarnLine` | `pkg/lockfile/parse-yarn-lock.go:15-17` | `LockYarn.shouldSkipYarnLine` |
| `groupPackageLines` | `pkg/lockfile/parse-yarn-lock.go:19-46` | `LockYarn.groupPackageLines`, `LockYarn.yarnGroupStep` |
| `extractYarnPackageName` | `pkg/lockfile/parse-yarn-lock.go:48-64` | `LockYarn.extractYarnPackageName` |
| `determineYarnPackageVersion` | `pkg/lockfile/parse-yarn-lock.go:66-79` | `LockYarn.determineYarnPackageVersion`, `LockYarn.firstGroup1`, `LockYarn.reYarnVersion` |
| `determineYarnPackageResolution` | `pkg/lockfile/parse-yarn-lock.go:81-94` | `LockYarn.determineYarnPackageResolution`, `LockYarn.firstGroup1`, `LockYarn.reYarnResolution` |
| `tryExtractCommit` | `pkg/lockfile/parse-yarn-lock.go:96-150` | `LockYarn.commitMatchers`, `LockYarn.commitOfUrl`, `LockYarn.firstMatcher`, `LockYarn.gitRepoHosts`, `LockYarn.reCommitCodeload`, `LockYarn.reCommitFragment`, `LockYarn.reCommitHttps`, `LockYarn.reCommitScheme`, `LockYarn.reCommitShorthand`, `LockYarn.tryExtractCommit` |
| `parsePackageGroup` | `pkg/lockfile/parse-yarn-lock.go:152-172` | `LockYarn.parsePackageGroup`, `ParserDiags.ParseDiag.text`, `ParserDiags.yarnDiag` |
| `ParseYarnLock` | `pkg/lockfile/parse-yarn-lock.go:174-200` | `LockYarn.parseYarnLock`, `LockYarn.skipYarnGroup`, `LockYarn.yarnStep`, `ParserDiags.yarnDiag`, `ParserDiags.yarnDiags` |
| `FindParser` | `pkg/lockfile/parse.go:12-18` | `Main.findParser` |
| `ListParsers` | `pkg/lockfile/parse.go:45-57` | `Main.listParsers` |
| `toSliceOfEcosystems` | `pkg/lockfile/parse.go:63-75` | `Csv.ecosystemsOf` |
| `Packages.Ecosystems` | `pkg/lockfile/parse.go:77-89` | `Csv.ecosystemsOf` |
| `Lockfile.String` | `pkg/lockfile/parse.go:97-121` | `Report.Lockfile.text`, `Report.pkgLine` |
| `Parse` | `pkg/lockfile/parse.go:128-150` | `Csv.pkgLess`, `Main.parseWith`, `Parsers.parseFile` |

Not modelled as a definition of its own:

| Function | Lines | Why |
| --- | --- | --- |
| `Reporter.HasErrored` | `internal/reporter/reporter.go:32-34` | field access; `RState.hasErrored` |
| `stringsFlag.String` | `main.go:341-343` | command-line parsing; the model starts from `Flags` |
| `APIDB.Name` | `pkg/database/api.go:18-18` | field access |
| `APIDB.Identifier` | `pkg/database/api.go:19-19` | field access |
| `DirDB.Name` | `pkg/database/dir.go:24-24` | field access |
| `DirDB.Identifier` | `pkg/database/dir.go:25-25` | field access |
| `ZipDB.Name` | `pkg/database/zip.go:30-30` | field access |
| `ZipDB.Identifier` | `pkg/database/zip.go:31-31` | field access |

Also outside the model: tests, scripts, and everything inside the libraries that are parameters above.
