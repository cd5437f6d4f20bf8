import Verif.Go.JsonDecode
import Verif.Go.JsonEncode
import Verif.Go.Path
import Verif.Model.Api
/-!
# Requests and responses of the API (`pkg/database/api.go`, `pkg/database/api-check.go`, `pkg/database/api-fetch.go`)
-/
namespace Osv
open Str Json

/-- `pkg/database/api.go:21-28` `apiQuery` as JSON. -/
def encQuery (q : ApiQuery) : JVal :=
  jobj (textIf g!"commit" q.commit ++ textIf g!"version" q.version ++
    [(g!"package", jobj [textAs g!"name" q.name, textAs g!"ecosystem" q.ecosystem])])

/-- `pkg/database/api-check.go:54-62`: the body of the request for a batch. -/
def batchBody (pkgs : List PackageDetails) : Str :=
  render (jobj [(g!"queries", jarr ((pkgs.map buildAPIPayload).map encQuery))])

/-- `pkg/database/api-check.go:41-43` `ObjectWithID`. -/
def decObjectWithID (v : JVal) : Option Str := decStruct [g!"id"] (fun _ w old => decStr w old) v []

/-- `pkg/database/api-check.go:111-113`: one result. -/
def decBatchResult (v : JVal) : Option (List Str) := decStruct [g!"vulns"] (fun _ w _ => decSlice decObjectWithID w) v []

/-- `pkg/database/api-check.go:110-116`: all results. -/
def decBatch (v : JVal) : Option (List (List Str)) := decStruct [g!"results"] (fun _ w _ => decSlice decBatchResult w) v []

/-- `pkg/database/api-check.go:116`: `json.Unmarshal` of the response; `none` if it reports an error. -/
def unmarshalBatch (text : Str) : Option (List (List Str)) := (parse text).bind decBatch

/-- `path.Join(a, b, c)` with `b` not empty. -/
def joinPath3 (a b c : Str) : Str :=
  let s := if c = [] then b else b ++ g!"/" ++ c
  Path.clean (if a = [] then s else a ++ g!"/" ++ s)

/-- `pkg/database/api-check.go:33-39` `bulkEndpoint`: the path of the URL, from the path of the base URL. -/
def bulkPath (base : Str) : Str := Path.join2 base g!"querybatch"

/-- `pkg/database/api-fetch.go:12-18` `osvEndpoint`: the path of the URL. -/
def vulnPath (base id : Str) : Str := joinPath3 base g!"vulns" id

end Osv
