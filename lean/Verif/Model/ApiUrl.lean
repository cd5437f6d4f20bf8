import Verif.Go.RequestURI
import Verif.Model.ApiJson
/-!
# URLs of the requests to an API (`pkg/database/api-check.go:33-39`, `pkg/database/api-fetch.go:12-18`)
-/
namespace Osv
open Str

/-- `pkg/database/api-check.go:33-39` `bulkEndpoint`. -/
def bulkEndpoint (u : Url.Request) : Str := ({ u with path := bulkPath u.path } : Url.Request).string

/-- `pkg/database/api-fetch.go:12-18` `osvEndpoint`. -/
def osvEndpoint (u : Url.Request) (id : Str) : Str := ({ u with path := vulnPath u.path id } : Url.Request).string

example : (Url.parseRequest g!"https://api.osv.dev/v1").map bulkEndpoint = some g!"https://api.osv.dev/v1/querybatch" := by decide +kernel
example : (Url.parseRequest g!"https://api.osv.dev").map (osvEndpoint · g!"A?") = some g!"https://api.osv.dev/vulns/A%3F" := by
  decide +kernel

end Osv
