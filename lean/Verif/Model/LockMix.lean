import Verif.Model.LockGradle
import Verif.Go.Regex
/-!
# mix.lock (`pkg/lockfile/parse-mix-lock.go`)
-/
namespace Osv
open Str

/-- `pkg/lockfile/parse-mix-lock.go:12` `MixEcosystem`. -/
def mixEcosystem : Ecosystem := g!"Hex"

/-- The expression `^ +"(\w+)": \{.+,$` of `pkg/lockfile/parse-mix-lock.go:21`. -/
def reMixLine : Re :=
  .cat [.bot, .plus (.ch ' '), .ch '"', .cap 1 (.plus (.cls isWord)), .lit g!"\": {", .plus .any, .ch ',', .eot]

/-- Removal of a quote at each end (`pkg/lockfile/parse-mix-lock.go:56-57`). -/
def unquoteMix (s : Str) : Str := trimSuffix (trimPrefix s g!"\"") g!"\""

/-- `pkg/lockfile/parse-mix-lock.go:28-70`: loop body. The message of lines 44-47 is in `Model/ParserDiags`. -/
def mixStep (packages : List PackageDetails) (line : Str) : List PackageDetails :=
  match reMixLine.find line with
  | none => packages
  | some m =>
    match fieldsFunc (· == ',') line with
    | f0 :: _ :: f2 :: f3 :: _ =>
      let version := unquoteMix (trimSpace f2)
      let commit := unquoteMix (trimSpace f3)
      if hasSuffix f0 g!":git" then
        packages ++ [{ name := m.group 1, version := [], commit := version, ecosystem := mixEcosystem,
                       compareAs := mixEcosystem }]
      else
        packages ++ [{ name := m.group 1, version := version, commit := commit, ecosystem := mixEcosystem,
                       compareAs := mixEcosystem }]
    | _ => packages

/-- `pkg/lockfile/parse-mix-lock.go:14-78` `ParseMixLock`. -/
def parseMixLock (content : Option Str) : Parsed :=
  match content with
  | none => ([], true)
  | some c =>
    let res := Scanner.scan c
    if res.2 then ([], true) else (res.1.foldl mixStep [], false)

end Osv
