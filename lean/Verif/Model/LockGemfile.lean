import Verif.Model.LockGradle
import Verif.Go.Regex
/-!
# Gemfile.lock (`pkg/lockfile/parse-gemfile-lock.go`)
-/
namespace Osv
open Str

/-- `pkg/lockfile/parse-gemfile-lock.go:12` `BundlerEcosystem`. -/
def bundlerEcosystem : Ecosystem := g!"RubyGems"

/-- `pkg/lockfile/parse-gemfile-lock.go:23-29` `parserState`; `none` is the empty string. -/
inductive GemState where
  | none | source | dependency | platform | ruby | bundledWith
deriving DecidableEq, Repr

/-- `pkg/lockfile/parse-gemfile-lock.go:31-36` `isSourceSection`. -/
def isSourceSection (line : Str) : Bool :=
  contains line g!"GIT" || contains line g!"GEM" || contains line g!"PATH" || contains line g!"PLUGIN SOURCE"

/-- `pkg/lockfile/parse-gemfile-lock.go:38-46` `gemfileLockfileParser`. The bundler and ruby versions are stored but
never read; they are not modelled. -/
structure GemParser where
  state : GemState := .none
  dependencies : List PackageDetails := []
  currentGemCommit : Str := []
deriving DecidableEq, Repr

/-- `pkg/lockfile/parse-gemfile-lock.go:48-56` `addDependency`. -/
def GemParser.addDependency (p : GemParser) (name version : Str) : GemParser :=
  { p with dependencies := p.dependencies ++ [⟨name, version, p.currentGemCommit, bundlerEcosystem, bundlerEcosystem⟩] }

/-- The end `(?: \(([^-]*)(?:-(.*))?\))?(!)?$` of the expression of `pkg/lockfile/parse-gemfile-lock.go:60`. -/
def reGemTail : Re :=
  .cat [.opt (.cat [.lit g!" (", .cap 3 (.star true (.cls (· != '-'))), .opt (.cat [.ch '-', .cap 4 (.star true .any)]), .ch ')']),
    .opt (.cap 5 (.ch '!')), .eot]

/-- The expression `^( +)(.*?)(?: \(([^-]*)(?:-(.*))?\))?(!)?$` of `pkg/lockfile/parse-gemfile-lock.go:60`. -/
def reGemSpec : Re := .seq .bot (.seq (.cap 1 (.plus (.ch ' '))) (.seq (.cap 2 (.star false .any)) reGemTail))

/-- `pkg/lockfile/parse-gemfile-lock.go:58-77` `parseSpec`. The group of spaces cannot be empty (line 70). -/
def GemParser.parseSpec (p : GemParser) (line : Str) : GemParser :=
  match reGemSpec.find line with
  | none => p
  | some m => if (m.group 1).length = 4 then p.addDependency (m.group 2) (m.group 3) else p

/-- `[a-z]` under `(?i)`, with the two runes outside ASCII that fold to `s` and `k`. -/
def isLetterFold (c : Char) : Bool :=
  ('a' ≤ c && c ≤ 'z') || ('A' ≤ c && c ≤ 'Z') || c == '\u017f' || c == '\u212a'

/-- The expression `(?i)^ {2}([a-z]+): (.*)$` of `pkg/lockfile/parse-gemfile-lock.go:86`. -/
def reGemOption : Re :=
  .cat [.bot, .lit g!"  ", .cap 1 (.plus (.cls isLetterFold)), .lit g!": ", .cap 2 (.star true .any), .eot]

/-- `pkg/lockfile/parse-gemfile-lock.go:79-106` `parseSource`. -/
def GemParser.parseSource (p : GemParser) (line : Str) : GemParser :=
  if line = g!"  specs" then p
  else match reGemOption.find line with
    | some m =>
      let commit := trimPrefix m.matched g!"  revision: "
      if commit ≠ m.matched then { p with currentGemCommit := commit } else p
    | none => p.parseSpec line

/-- `^\S` of `pkg/lockfile/parse-gemfile-lock.go:109`. -/
def reGemIndent : Re := .seq .bot (.cls fun c => !isReSpace c)

/-- `pkg/lockfile/parse-gemfile-lock.go:108-112` `isNotIndented`. -/
def isNotIndented (line : Str) : Bool := reGemIndent.isMatch line

/-- `pkg/lockfile/parse-gemfile-lock.go:114-128` `parseLineBasedOnState`. -/
def GemParser.parseLineBasedOnState (p : GemParser) (line : Str) : GemParser :=
  match p.state with
  | .source => p.parseSource line
  | _ => p

/-- `pkg/lockfile/parse-gemfile-lock.go:136-163`: loop body of `parse`. -/
def gemStep (p : GemParser) (line : Str) : GemParser :=
  if isSourceSection line then ({ p with currentGemCommit := [], state := .source } : GemParser).parseSource line
  else if line = g!"DEPENDENCIES" then { p with state := .dependency }
  else if line = g!"PLATFORMS" then { p with state := .platform }
  else if line = g!"RUBY VERSION" then { p with state := .ruby }
  else if line = g!"BUNDLED WITH" then { p with state := .bundledWith }
  else
    let p := if isNotIndented line then { p with state := .none } else p
    if p.state ≠ .none then p.parseLineBasedOnState line else p

/-- The expression `(?:\r?\n)+` of `pkg/lockfile/parse-gemfile-lock.go:131`. -/
def reGemLines : Re := .plus (.seq (.opt (.ch '\r')) (.ch '\n'))

/-- `pkg/lockfile/parse-gemfile-lock.go:130-165` `parse`. -/
def gemParse (contents : Str) : GemParser := (reGemLines.split contents).foldl gemStep {}

/-- `pkg/lockfile/parse-gemfile-lock.go:167-179` `ParseGemfileLock`. -/
def parseGemfileLock (content : Option Str) : Parsed :=
  match content with
  | none => ([], true)
  | some c => ((gemParse c).dependencies, false)

end Osv
