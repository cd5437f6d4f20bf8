import Verif.Model.Api
/-! # What a server lists for a package -/
namespace Osv.Spec

/-- The server was asked about the block of `size` packages that contains number `k`, answered with status 200 and as many lists of
IDs as there are packages in the block, and `ids` is the list at the position of number `k`. -/
def ServerLists (A : ApiEnv) (size : Nat) (pkgs : List PackageDetails) (k : Nat) (ids : List Str) : Prop :=
  ∃ body lists, A.post (k / size) (((pkgs.drop (k / size * size)).take size).map buildAPIPayload) = .response 200 (some body) ∧
    A.parse body = some lists ∧ lists.length = ((pkgs.drop (k / size * size)).take size).length ∧ lists[k % size]? = some ids

/-- The server answered a request for the details of `id` with status 200 and `v`. -/
def ServerDescribes (A : ApiEnv) (id : Str) (v : OSV) : Prop :=
  ∃ n body, A.get n id = .response 200 (some body) ∧ v = A.decode body

end Osv.Spec
