import Verif.Model.LockGradle
import Verif.Go.Regex
import Verif.Go.Url
import Verif.Lemmas.StrLen
/-!
# yarn.lock (`pkg/lockfile/parse-yarn-lock.go`)
-/
namespace Osv
open Str

/-- `pkg/lockfile/parse-npm-lock.go` `NpmEcosystem`, and `pkg/lockfile/parse-yarn-lock.go:13` `YarnEcosystem`. -/
def npmEcosystem : Ecosystem := g!"npm"

/-- `pkg/lockfile/parse-yarn-lock.go:15-17` `shouldSkipYarnLine`. -/
def shouldSkipYarnLine (line : Str) : Bool := line.isEmpty || hasPrefix line g!"#"

/-- `pkg/lockfile/parse-yarn-lock.go:24-38`: loop body; the state is (`groups`, `group`). -/
def yarnGroupStep (st : List (List Str) × List Str) (line : Str) : List (List Str) × List Str :=
  if shouldSkipYarnLine line then st
  else if !hasPrefix line g!" " then
    ((if st.2.length > 0 then st.1 ++ [st.2] else st.1), [line])
  else (st.1, st.2 ++ [line])

/-- `pkg/lockfile/parse-yarn-lock.go:19-46` `groupPackageLines`, on the lines of the scanner. -/
def groupPackageLines (lines : List Str) : List (List Str) :=
  let st := lines.foldl yarnGroupStep ([], [])
  if st.2.length > 0 then st.1 ++ [st.2] else st.1

/-- `pkg/lockfile/parse-yarn-lock.go:48-64` `extractYarnPackageName`. -/
def extractYarnPackageName (str : Str) : Str :=
  let s1 := trimPrefix str g!"\""
  let s2 := (cut s1 g!",").1
  let s3 := cutPrefix s2 g!"@"
  let nr := cut s3.1 g!"@"
  if hasPrefix nr.2 g!"npm:" && contains nr.2 g!"@" then extractYarnPackageName (trimPrefix nr.2 g!"npm:")
  else if s3.2 then g!"@" ++ nr.1 else nr.1
termination_by str.length
decreasing_by
  rename_i h
  simp only [Bool.and_eq_true] at h
  have e0 := trimPrefix_lt nr.2 g!"npm:" (by simp) h.1
  have e1 : nr.2.length ≤ s3.1.length := cut_snd_le s3.1 '@'
  have e2 : s3.1.length ≤ s2.length := cutPrefix_le s2 g!"@"
  have e3 : s2.length ≤ s1.length := cut_fst_le s1 ','
  have e4 : s1.length ≤ str.length := trimPrefix_le str g!"\""
  show (trimPrefix nr.2 g!"npm:").length < str.length
  omega

/-- The class `[\w-.+]`. -/
def isYarnVersionChar (c : Char) : Bool := isWord c || c == '-' || c == '.' || c == '+'

/-- The expression `^ {2}"?version"?:? "?([\w-.+]+)"?$` of `pkg/lockfile/parse-yarn-lock.go:67`. -/
def reYarnVersion : Re :=
  .cat [.bot, .lit g!"  ", .opt (.ch '"'), .lit g!"version", .opt (.ch '"'), .opt (.ch ':'), .ch ' ', .opt (.ch '"'),
        .cap 1 (.plus (.cls isYarnVersionChar)), .opt (.ch '"'), .eot]

/-- The expression `^ {2}"?(?:resolution:|resolved)"? "([^ '"]+)"$` of `pkg/lockfile/parse-yarn-lock.go:82`. -/
def reYarnResolution : Re :=
  .cat [.bot, .lit g!"  ", .opt (.ch '"'), .alt (.lit g!"resolution:") (.lit g!"resolved"), .opt (.ch '"'), .lit g!" \"",
        .cap 1 (.plus (.cls fun c => c != ' ' && c != '\'' && c != '"')), .ch '"', .eot]

/-- Group 1 of the first line that matches, as in `pkg/lockfile/parse-yarn-lock.go:69-78` and `84-93`. -/
def firstGroup1 (re : Re) : List Str → Str
  | [] => []
  | s :: rest => match re.find s with
    | some m => m.group 1
    | none => firstGroup1 re rest

/-- `pkg/lockfile/parse-yarn-lock.go:66-79` `determineYarnPackageVersion`. -/
def determineYarnPackageVersion (group : List Str) : Str := firstGroup1 reYarnVersion group

/-- `pkg/lockfile/parse-yarn-lock.go:81-94` `determineYarnPackageResolution`. -/
def determineYarnPackageResolution (group : List Str) : Str := firstGroup1 reYarnResolution group

/-- `(\w+)` -/
def reWord1 : Re := .cap 1 (.plus (.cls isWord))

/-- `(?:^|.+@)(?:git(?:\+(?:ssh|https))?|ssh)://.+#(\w+)$`, `pkg/lockfile/parse-yarn-lock.go:103`. -/
def reCommitScheme : Re :=
  .cat [.alt .bot (.cat [.plus .any, .ch '@']),
        .alt (.cat [.lit g!"git", .opt (.cat [.ch '+', .alt (.lit g!"ssh") (.lit g!"https")])]) (.lit g!"ssh"),
        .lit g!"://", .plus .any, .ch '#', reWord1, .eot]

/-- `(?:^|.+@)https://.+\.git#(\w+)$`, `pkg/lockfile/parse-yarn-lock.go:105`. -/
def reCommitHttps : Re :=
  .cat [.alt .bot (.cat [.plus .any, .ch '@']), .lit g!"https://", .plus .any, .lit g!".git", .ch '#', reWord1, .eot]

/-- One path segment, `/[\w-.]+`. -/
def reSegment : Re := .cat [.ch '/', .plus (.cls fun c => isWord c || c == '-' || c == '.')]

/-- `https://codeload\.github\.com(?:/[\w-.]+){2}/tar\.gz/(\w+)$`, `pkg/lockfile/parse-yarn-lock.go:106`. -/
def reCommitCodeload : Re :=
  .cat [.lit g!"https://codeload.github.com", reSegment, reSegment, .lit g!"/tar.gz", .ch '/', reWord1, .eot]

/-- `.+#commit[:=](\w+)$`, `pkg/lockfile/parse-yarn-lock.go:107`. -/
def reCommitFragment : Re :=
  .cat [.plus .any, .lit g!"#commit", .cls (fun c => c == ':' || c == '='), reWord1, .eot]

/-- `^(?:github|gitlab|bitbucket):.+#(\w+)$`, `pkg/lockfile/parse-yarn-lock.go:111`. -/
def reCommitShorthand : Re :=
  .cat [.bot, .alt (.lit g!"github") (.alt (.lit g!"gitlab") (.lit g!"bitbucket")), .ch ':', .plus .any, .ch '#',
        reWord1, .eot]

/-- `pkg/lockfile/parse-yarn-lock.go:98-112` `matchers`. -/
def commitMatchers : List Re :=
  [reCommitScheme, reCommitHttps, reCommitCodeload, reCommitFragment, reCommitShorthand]

/-- `pkg/lockfile/parse-yarn-lock.go:114-121`: group 1 of the first matcher that matches. -/
def firstMatcher : List Re → Str → Option Str
  | [], _ => none
  | re :: rest, s => match re.find s with
    | some m => some (m.group 1)
    | none => firstMatcher rest s

/-- `pkg/lockfile/parse-yarn-lock.go:126-130` `gitRepoHosts`. -/
def gitRepoHosts : List Str := [g!"bitbucket.org", g!"github.com", g!"gitlab.com"]

/-- `pkg/lockfile/parse-yarn-lock.go:123-149`: the commit of a URL of a git host. -/
def commitOfUrl (resolution : Str) : Str :=
  match Url.parse resolution with
  | none => []
  | some u =>
    if gitRepoHosts.contains u.host then
      match (Url.query u).lookup g!"ref" with
      | some v => v
      | none => u.fragment
    else []

/-- `pkg/lockfile/parse-yarn-lock.go:96-150` `tryExtractCommit`. -/
def tryExtractCommit (resolution : Str) : Str :=
  match firstMatcher commitMatchers resolution with
  | some c => c
  | none => commitOfUrl resolution

/-- `pkg/lockfile/parse-yarn-lock.go:152-172` `parsePackageGroup`. The message about a missing version is in
`Model/ParserDiags`. Groups are never empty (`C44_blocks`), so `group[0]` does not panic. -/
def parsePackageGroup (group : List Str) : PackageDetails :=
  { name := extractYarnPackageName (group.headD []), version := determineYarnPackageVersion group,
    commit := tryExtractCommit (determineYarnPackageResolution group), ecosystem := npmEcosystem,
    compareAs := npmEcosystem }

/-- `pkg/lockfile/parse-yarn-lock.go:192`: groups that are not packages. -/
def skipYarnGroup (group : List Str) : Bool :=
  group.headD [] == g!"__metadata:" || hasSuffix (group.headD []) g!"@workspace:.\":"

/-- `pkg/lockfile/parse-yarn-lock.go:191-197`: loop body. -/
def yarnStep (packages : List PackageDetails) (group : List Str) : List PackageDetails :=
  if skipYarnGroup group then packages else packages ++ [parsePackageGroup group]

/-- `pkg/lockfile/parse-yarn-lock.go:174-200` `ParseYarnLock`. -/
def parseYarnLock (content : Option Str) : Parsed :=
  match content with
  | none => ([], true)
  | some c =>
    let res := Scanner.scan c
    if res.2 then ([], true) else ((groupPackageLines res.1).foldl yarnStep [], false)

end Osv
