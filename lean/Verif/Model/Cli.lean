import Verif.Model.Main
/-!
# The command line (`main.go:499-522` and the package `flag` of the standard library)
-/
namespace Osv
open Str

/-- `strconv.ParseBool`. -/
def parseBool (s : Str) : Option Bool :=
  if [g!"1", g!"t", g!"T", g!"TRUE", g!"true", g!"True"].contains s then some true
  else if [g!"0", g!"f", g!"F", g!"FALSE", g!"false", g!"False"].contains s then some false
  else none

/-- `main.go:503-515`: the boolean flags. -/
def boolFlags : List (Str × (Bool → Flags → Flags)) :=
  [(g!"offline", fun b f => { f with offline := b }), (g!"no-config", fun b f => { f with noConfig := b }),
   (g!"update-config-ignores", fun b f => { f with updateConfigIgnores := b }),
   (g!"no-config-ignores", fun b f => { f with noConfigIgnores := b }),
   (g!"no-config-databases", fun b f => { f with noConfigDatabases := b }),
   (g!"version", fun b f => { f with printVersion := b }), (g!"list-ecosystems", fun b f => { f with listEcosystems := b }),
   (g!"list-packages", fun b f => { f with listPackages := b }), (g!"json", fun b f => { f with json := b }),
   (g!"use-dbs", fun b f => { f with useDatabases := b }), (g!"use-api", fun b f => { f with useAPI := b })]

/-- `main.go:504-519`: the flags with a value, `Set` of `stringsFlag` (`main.go:345-349`) among them. `atoi` is
`strconv.ParseInt(s, 0, 64)`. -/
def valueFlags (atoi : Str → Option Int) : List (Str × (Str → Flags → Option Flags)) :=
  [(g!"parse-as", fun v f => some { f with parseAs := v }), (g!"config", fun v f => some { f with configPath := v }),
   (g!"batch-size", fun v f => (atoi v).map fun n => { f with batchSize := n }),
   (g!"ignore", fun v f => some { f with globalIgnores := f.globalIgnores ++ [v] })]

/-- Why the arguments are not accepted: the help was asked for, or something is wrong. -/
inductive CliErr where
  | help
  | bad
deriving DecidableEq, Repr

/-- The loop over `name` in `parseOne` of the package `flag`: the part before the first `=` that is not at the front, and the part
after it if there is one. -/
def splitEquals : Str → Str × Option Str
  | [] => ([], none)
  | c :: cs => match cut? g!"=" cs with
    | none => (c :: cs, none)
    | some (a, b) => (c :: a, some b)

/-- `(*FlagSet).Parse` with `parseOne`, package `flag`, from the flags read so far. -/
def parseArgs (atoi : Str → Option Int) (f : Flags) : List Str → Except CliErr Flags
  | [] => .ok { f with args := [] }
  | s :: rest =>
    if s.length < 2 || !hasPrefix s g!"-" then .ok { f with args := s :: rest }
    else if s = g!"--" then .ok { f with args := rest }
    else
      let name := if hasPrefix s g!"--" then s.drop 2 else s.drop 1
      if name = [] || hasPrefix name g!"-" || hasPrefix name g!"=" then .error .bad
      else
        let nv := splitEquals name
        match boolFlags.lookup nv.1 with
        | some set => match parseBool (nv.2.getD g!"true") with
          | none => .error .bad
          | some b => parseArgs atoi (set b f) rest
        | none => match (valueFlags atoi).lookup nv.1 with
          | none => .error (if nv.1 = g!"help" || nv.1 = g!"h" then .help else .bad)
          | some set => match nv.2 with
            | some v => match set v f with
              | none => .error .bad
              | some f => parseArgs atoi f rest
            | none => match rest with
              | [] => .error .bad
              | v :: rest => match set v f with
                | none => .error .bad
                | some f => parseArgs atoi f rest

/-- `main.go:500-519`: the flags before parsing; `preferAPI` is that of `main.go:28`. -/
def defaultFlags (preferAPI : Bool) : Flags := { useDatabases := !preferAPI, useAPI := preferAPI }

/-- `main.go:783-785` `main`, with `flag.ExitOnError`: the command exits with 0 if the help was asked for and with 2 if the arguments
are wrong; `none` is for the result of a run that did not start. -/
def mainExit (S : Sorter) (env : Env) (atoi : Str → Option Int) (preferAPI : Bool) (args : List Str) : Nat × Option RunResult :=
  match parseArgs atoi (defaultFlags preferAPI) args with
  | .error .help => (0, none)
  | .error .bad => (2, none)
  | .ok f => ((run S env f).exit, some (run S env f))

end Osv
