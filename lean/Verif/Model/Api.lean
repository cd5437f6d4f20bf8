import Verif.Model.Osv
import Verif.Go.ErrGroup
/-!
# API database (`pkg/database/api*.go`)

The network is a parameter.  JSON decoding of responses is a parameter.  Goroutines are the state machine of
`Verif.Go.ErrGroup`, so `APICheck` relates the input to every result that some interleaving produces.
-/
namespace Osv



/-- `pkg/database/api.go:21-28` `apiQuery`; empty strings are omitted from the JSON (`commit`, `version`). -/
structure ApiQuery where
  commit : Str := []
  version : Str := []
  name : Str := []
  ecosystem : Ecosystem := []
deriving DecidableEq, Repr

/-- `pkg/database/api-check.go:18-31` `buildAPIPayload`. -/
def buildAPIPayload (pkg : PackageDetails) : ApiQuery :=
  if pkg.name ≠ [] ∧ pkg.ecosystem ≠ [] ∧ pkg.version ≠ [] then
    { name := pkg.name, ecosystem := pkg.ecosystem, version := pkg.version }
  else if pkg.commit ≠ [] then { commit := pkg.commit }
  else {}

/-- `pkg/database/api-check.go:45-51`: the errors (`json.Marshal` of strings cannot fail). -/
inductive ApiErr where
  | requestInvalid
  | requestFailed
  | unexpectedResponse (status : Nat)
  | unreadableResponse
  | responseNotJSON
  | resultsCountMismatch (expected got : Nat)
deriving DecidableEq, Repr

/-- What happens to one HTTP request; `body = none` means that reading the body failed. -/
inductive HttpOutcome where
  | invalid
  | failed
  | response (status : Nat) (body : Option Str)
deriving DecidableEq, Repr

/-- `pkg/database/api-check.go:53-144` `checkBatch`: `post` is the network, `parse` decodes the body into the
IDs per result. -/
def checkBatch (parse : Str → Option (List (List Str))) (post : List ApiQuery → HttpOutcome)
    (pkgs : List PackageDetails) : Except ApiErr (List (List Str)) :=
  match post (pkgs.map buildAPIPayload) with
  | .invalid => .error .requestInvalid
  | .failed => .error .requestFailed
  | .response status body =>
    if status ≠ 200 then .error (.unexpectedResponse status)
    else match body with
      | none => .error .unreadableResponse
      | some b => match parse b with
        | none => .error .responseNotJSON
        | some rs =>
          if pkgs.length ≠ rs.length then .error (.resultsCountMismatch pkgs.length rs.length)
          else .ok rs

/-- `pkg/database/api-check.go:153-157`: the loop of `batchPkgs` from index `i`. -/
def batchLoop {α : Type} (pkgs : List α) (size : Nat) (hs : 0 < size) (i : Nat) : List (List α) :=
  if i < pkgs.length then
    let end_ := min (i + size) pkgs.length
    (pkgs.take end_).drop i :: batchLoop pkgs size hs (i + size)
  else []
termination_by pkgs.length - i

/-- `pkg/database/api-check.go:146-160` `batchPkgs`; `none` is the division by zero panic of line 150.
Negative sizes cannot occur (`NewAPIDB`). -/
def batchPkgs {α : Type} (pkgs : List α) (size : Nat) : Option (List (List α)) :=
  if hs : 0 < size then some (batchLoop pkgs size hs 0) else none

/-- `pkg/database/api-check.go:162-170` `findOrDefault`. -/
def findOrDefault (vulns : List OSV) (d : OSV) : OSV := (vulns.find? fun v => v.id = d.id).getD d

/-- `pkg/database/api-fetch.go:21-79` `Fetch`, without its error, which `FetchAll` drops. `decode` is what
`json.Unmarshal` leaves in the record, also when it reports an error. -/
def apiFetch (decode : Str → OSV) (get : Str → HttpOutcome) (id : Str) : OSV :=
  match get id with
  | .invalid => default
  | .failed => default
  | .response status body =>
    if status ≠ 200 then default
    else match body with
      | none => default
      | some b => decode b

/-- `pkg/database/api-fetch-all.go:32-34`: order of the fetched records. -/
def lessID (a b : OSV) : Bool := Str.lt a.id b.id

/-- The outside world of one API check: network behaviour per batch and per detail request (by position, so
that equal requests may be answered differently), and the JSON decoders. -/
structure ApiEnv where
  post : Nat → List ApiQuery → HttpOutcome
  get : Nat → Str → HttpOutcome
  parse : Str → Option (List (List Str))
  decode : Str → OSV

/-- Task of the `i`-th goroutine of `Check` (`pkg/database/api-check.go:184-194`). -/
def ApiEnv.batchTask (env : ApiEnv) (batches : List (List PackageDetails)) (i : Nat) :
    Except ApiErr (List (List Str)) :=
  checkBatch env.parse (env.post i) (batches.getD i [])

/-- Task of the `i`-th goroutine of `FetchAll` (`pkg/database/api-fetch-all.go:17-26`). -/
def ApiEnv.fetchTask (env : ApiEnv) (ids : List Str) (i : Nat) : Except ApiErr OSV :=
  .ok (apiFetch env.decode (env.get i) (ids.getD i []))

/-- `pkg/database/api-fetch-all.go:9-37` `FetchAll`: `out` is a possible result. -/
def FetchAll (S : Sorter) (env : ApiEnv) (ids : List Str) (out : List OSV) : Prop :=
  ∃ t, EG.Reachable ids.length 200 (env.fetchTask ids) t ∧ EG.Final ids.length t ∧
    out = S.sort lessID (t.slots.map fun o => o.getD default)

/-- `pkg/database/api-check.go:203-216`: bare records per package. -/
def bareResults (batchResults : List (List (List Str))) : List (List OSV) :=
  batchResults.flatMap fun results => results.map fun ids => ids.map fun id => { id := id }

/-- `pkg/database/api-check.go:218-230`: the IDs to fetch. -/
def idsToFetch (vulns : List (List OSV)) : List Str := (uniqueVulns vulns.flatten).map (·.id)

/-- `pkg/database/api-check.go:172-241` `Check`: `res` is a possible result of checking `pkgs`. -/
def APICheck (S : Sorter) (env : ApiEnv) (batchSize : Nat) (pkgs : List PackageDetails)
    (res : Except ApiErr (List (List OSV))) : Prop :=
  ∃ batches, batchPkgs pkgs batchSize = some batches ∧
  ∃ s, EG.Reachable batches.length 100 (env.batchTask batches) s ∧ EG.Final batches.length s ∧
    match s.err with
    | some e => res = .error e
    | none =>
      let vulns := bareResults (s.slots.map fun o => o.getD [])
      ∃ osvs, FetchAll S env (idsToFetch vulns) osvs ∧
        res = .ok (vulns.map fun vs => vs.map (findOrDefault osvs))

end Osv
