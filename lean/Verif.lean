import Verif.Go.Base64
import Verif.Go.ErrGroup
import Verif.Go.Json
import Verif.Go.JsonDecode
import Verif.Go.JsonEncode
import Verif.Go.Jsonc
import Verif.Go.ParseFloat
import Verif.Go.Path
import Verif.Go.PdqSort
import Verif.Go.Regex
import Verif.Go.RequestURI
import Verif.Go.Rfc3339
import Verif.Go.Scanner
import Verif.Go.Semver
import Verif.Go.Sort
import Verif.Go.SortStr
import Verif.Go.Str
import Verif.Go.Toml
import Verif.Go.TomlText
import Verif.Go.Url
import Verif.Go.Xml
import Verif.Go.Yaml
import Verif.Go.YamlScan
import Verif.Model.Api
import Verif.Model.ApiJson
import Verif.Model.ApiUrl
import Verif.Model.Cli
import Verif.Model.Config
import Verif.Model.ConfigText
import Verif.Model.ConfigWrite
import Verif.Model.ConfigYaml
import Verif.Model.CranVersion
import Verif.Model.Crash
import Verif.Model.Csv
import Verif.Model.CsvText
import Verif.Model.Describe
import Verif.Model.Diagnostics
import Verif.Model.GemVersion
import Verif.Model.Load
import Verif.Model.LockBun
import Verif.Model.LockComposer
import Verif.Model.LockGemfile
import Verif.Model.LockGoMod
import Verif.Model.LockGradle
import Verif.Model.LockMaven
import Verif.Model.LockMix
import Verif.Model.LockNpm
import Verif.Model.LockNuGet
import Verif.Model.LockPip
import Verif.Model.LockPipenv
import Verif.Model.LockPnpm
import Verif.Model.LockPubspec
import Verif.Model.LockRenv
import Verif.Model.LockToml
import Verif.Model.LockYarn
import Verif.Model.Main
import Verif.Model.MavenVersion
import Verif.Model.MemDB
import Verif.Model.MemHeap
import Verif.Model.ModFile
import Verif.Model.Osv
import Verif.Model.OsvJson
import Verif.Model.OsvPanic
import Verif.Model.Output
import Verif.Model.Packagist
import Verif.Model.ParserDiags
import Verif.Model.Parsers
import Verif.Model.PomXml
import Verif.Model.Pypi
import Verif.Model.RegexCache
import Verif.Model.Report
import Verif.Model.ReportJson
import Verif.Model.Semantic
import Verif.Model.TomlFiles
import Verif.Model.World
import Verif.Model.WorldApi
import Verif.Model.WorldCache
import Verif.Model.WorldCrash
import Verif.Model.YamlFiles
import Verif.Model.ZipCache
import Verif.Spec.Advisory
import Verif.Spec.ApiJson
import Verif.Spec.Bun
import Verif.Spec.Cache
import Verif.Spec.CacheFile
import Verif.Spec.Case
import Verif.Spec.Cli
import Verif.Spec.Commit
import Verif.Spec.Compare
import Verif.Spec.ConfigWrite
import Verif.Spec.ConfigYaml
import Verif.Spec.CranVersion
import Verif.Spec.Crash
import Verif.Spec.CsvText
import Verif.Spec.Databases
import Verif.Spec.DbUrl
import Verif.Spec.Describe
import Verif.Spec.Diagnostics
import Verif.Spec.Discovery
import Verif.Spec.Disk
import Verif.Spec.Ecosystem
import Verif.Spec.Float
import Verif.Spec.Formats
import Verif.Spec.GemVersion
import Verif.Spec.Gemfile
import Verif.Spec.GitUrl
import Verif.Spec.GoMod
import Verif.Spec.Gradle
import Verif.Spec.Ignores
import Verif.Spec.Intervals
import Verif.Spec.JsonDoc
import Verif.Spec.JsonText
import Verif.Spec.Lines
import Verif.Spec.Lists
import Verif.Spec.Load
import Verif.Spec.Maven
import Verif.Spec.MavenVersion
import Verif.Spec.Mix
import Verif.Spec.ModText
import Verif.Spec.Npm
import Verif.Spec.NuGet
import Verif.Spec.NuGetOrder
import Verif.Spec.Output
import Verif.Spec.Packagist
import Verif.Spec.ParserDiags
import Verif.Spec.Pep440
import Verif.Spec.Pip
import Verif.Spec.Pnpm
import Verif.Spec.PomXml
import Verif.Spec.Precedence
import Verif.Spec.ReportJson
import Verif.Spec.RequestUri
import Verif.Spec.Rerun
import Verif.Spec.RerunWorld
import Verif.Spec.Run
import Verif.Spec.RunSamples
import Verif.Spec.Samples
import Verif.Spec.Server
import Verif.Spec.Text
import Verif.Spec.Time
import Verif.Spec.TomlDoc
import Verif.Spec.TomlFiles
import Verif.Spec.Transcript
import Verif.Spec.Version
import Verif.Spec.Vulns
import Verif.Spec.World
import Verif.Spec.WorldText
import Verif.Spec.Xml
import Verif.Spec.Yaml
import Verif.Spec.YamlDoc
import Verif.Spec.YamlFiles
import Verif.Spec.Yarn
import Verif.Lemmas.Advisory
import Verif.Lemmas.ApiUrl
import Verif.Lemmas.Base64
import Verif.Lemmas.Bun
import Verif.Lemmas.CacheFile
import Verif.Lemmas.Case
import Verif.Lemmas.Cells
import Verif.Lemmas.CheckDiags
import Verif.Lemmas.Cli
import Verif.Lemmas.ConfigWrite
import Verif.Lemmas.ConfigYaml
import Verif.Lemmas.CranVersion
import Verif.Lemmas.Crash
import Verif.Lemmas.CsvText
import Verif.Lemmas.Databases
import Verif.Lemmas.Dedup
import Verif.Lemmas.Describe
import Verif.Lemmas.DetailMap
import Verif.Lemmas.Diagnostics
import Verif.Lemmas.Discovery
import Verif.Lemmas.Disk
import Verif.Lemmas.Ecosystem
import Verif.Lemmas.EndToEnd
import Verif.Lemmas.Formats
import Verif.Lemmas.GemVersion
import Verif.Lemmas.Gemfile
import Verif.Lemmas.GoMod
import Verif.Lemmas.Intervals
import Verif.Lemmas.Json
import Verif.Lemmas.JsonDecode
import Verif.Lemmas.JsonText
import Verif.Lemmas.JsonTexts
import Verif.Lemmas.JsonTyped
import Verif.Lemmas.Jsonc
import Verif.Lemmas.Lists
import Verif.Lemmas.MapOrder
import Verif.Lemmas.Maven
import Verif.Lemmas.MavenReference
import Verif.Lemmas.MavenVersion
import Verif.Lemmas.MemDB
import Verif.Lemmas.MemHeap
import Verif.Lemmas.Merge
import Verif.Lemmas.ModFile
import Verif.Lemmas.ModLex
import Verif.Lemmas.ModLines
import Verif.Lemmas.ModText
import Verif.Lemmas.Npm
import Verif.Lemmas.NpmJson
import Verif.Lemmas.NpmPath
import Verif.Lemmas.NuGet
import Verif.Lemmas.NuGetOrder
import Verif.Lemmas.OrderExact
import Verif.Lemmas.OsvPanic
import Verif.Lemmas.Output
import Verif.Lemmas.OwnConfig
import Verif.Lemmas.Packagist
import Verif.Lemmas.Panics
import Verif.Lemmas.ParseFloat
import Verif.Lemmas.Path
import Verif.Lemmas.Paths
import Verif.Lemmas.PdqMoves
import Verif.Lemmas.PdqPart
import Verif.Lemmas.PdqSlice
import Verif.Lemmas.PdqSorted
import Verif.Lemmas.Pip
import Verif.Lemmas.PipGraph
import Verif.Lemmas.Pnpm
import Verif.Lemmas.PnpmRule
import Verif.Lemmas.PomXml
import Verif.Lemmas.Precedence
import Verif.Lemmas.Prints
import Verif.Lemmas.PypiOrder
import Verif.Lemmas.PypiRead
import Verif.Lemmas.PypiText
import Verif.Lemmas.Regex
import Verif.Lemmas.RegexEval
import Verif.Lemmas.RegexFirst
import Verif.Lemmas.RegexMatch
import Verif.Lemmas.ReportJson
import Verif.Lemmas.RequestURI
import Verif.Lemmas.Rerun
import Verif.Lemmas.RerunWorld
import Verif.Lemmas.Rfc3339
import Verif.Lemmas.Run
import Verif.Lemmas.RunFun
import Verif.Lemmas.Scanner
import Verif.Lemmas.Semantic
import Verif.Lemmas.Semver
import Verif.Lemmas.SemverLong
import Verif.Lemmas.Str
import Verif.Lemmas.StrLen
import Verif.Lemmas.Text
import Verif.Lemmas.TomlFiles
import Verif.Lemmas.TomlInt
import Verif.Lemmas.TomlLex
import Verif.Lemmas.TomlTree
import Verif.Lemmas.TomlValue
import Verif.Lemmas.TomlWrite
import Verif.Lemmas.Transcript
import Verif.Lemmas.Update
import Verif.Lemmas.UriDecode
import Verif.Lemmas.UriParse
import Verif.Lemmas.UriWrite
import Verif.Lemmas.Url
import Verif.Lemmas.UrlHost
import Verif.Lemmas.Version
import Verif.Lemmas.VersionOn
import Verif.Lemmas.Warnings
import Verif.Lemmas.Xml
import Verif.Lemmas.Yaml
import Verif.Lemmas.YamlAccept
import Verif.Lemmas.YamlCut
import Verif.Lemmas.YamlFiles
import Verif.Lemmas.YamlLines
import Verif.Lemmas.YamlScan
import Verif.Lemmas.ZipCache
import Verif.Props.C01
import Verif.Props.C02
import Verif.Props.C03
import Verif.Props.C04
import Verif.Props.C05
import Verif.Props.C06
import Verif.Props.C07
import Verif.Props.C08
import Verif.Props.C09
import Verif.Props.C10
import Verif.Props.C100
import Verif.Props.C101
import Verif.Props.C102
import Verif.Props.C103
import Verif.Props.C104
import Verif.Props.C105
import Verif.Props.C106
import Verif.Props.C107
import Verif.Props.C108
import Verif.Props.C109
import Verif.Props.C11
import Verif.Props.C110
import Verif.Props.C111
import Verif.Props.C112
import Verif.Props.C113
import Verif.Props.C114
import Verif.Props.C115
import Verif.Props.C12
import Verif.Props.C13
import Verif.Props.C14
import Verif.Props.C15
import Verif.Props.C16
import Verif.Props.C17
import Verif.Props.C18
import Verif.Props.C19
import Verif.Props.C20
import Verif.Props.C21
import Verif.Props.C22
import Verif.Props.C23
import Verif.Props.C23Codes
import Verif.Props.C24
import Verif.Props.C25
import Verif.Props.C26
import Verif.Props.C27
import Verif.Props.C28
import Verif.Props.C29
import Verif.Props.C30
import Verif.Props.C31
import Verif.Props.C32
import Verif.Props.C33
import Verif.Props.C34
import Verif.Props.C35
import Verif.Props.C36
import Verif.Props.C37
import Verif.Props.C38
import Verif.Props.C39
import Verif.Props.C39Exact
import Verif.Props.C40
import Verif.Props.C41
import Verif.Props.C42
import Verif.Props.C43
import Verif.Props.C44
import Verif.Props.C45
import Verif.Props.C46
import Verif.Props.C47
import Verif.Props.C48
import Verif.Props.C49
import Verif.Props.C50
import Verif.Props.C51
import Verif.Props.C52
import Verif.Props.C53
import Verif.Props.C54
import Verif.Props.C55
import Verif.Props.C55Hosts
import Verif.Props.C56
import Verif.Props.C57
import Verif.Props.C58
import Verif.Props.C59
import Verif.Props.C60
import Verif.Props.C61
import Verif.Props.C62
import Verif.Props.C63
import Verif.Props.C64
import Verif.Props.C65
import Verif.Props.C66
import Verif.Props.C67
import Verif.Props.C68
import Verif.Props.C69
import Verif.Props.C70
import Verif.Props.C71
import Verif.Props.C72
import Verif.Props.C73
import Verif.Props.C74
import Verif.Props.C75
import Verif.Props.C76
import Verif.Props.C77
import Verif.Props.C78
import Verif.Props.C79
import Verif.Props.C80
import Verif.Props.C81
import Verif.Props.C82
import Verif.Props.C83
import Verif.Props.C83World
import Verif.Props.C84
import Verif.Props.C85
import Verif.Props.C86
import Verif.Props.C87
import Verif.Props.C88
import Verif.Props.C89
import Verif.Props.C90
import Verif.Props.C91
import Verif.Props.C92
import Verif.Props.C93
import Verif.Props.C94
import Verif.Props.C95
import Verif.Props.C96
import Verif.Props.C97
import Verif.Props.C98
import Verif.Props.C99
