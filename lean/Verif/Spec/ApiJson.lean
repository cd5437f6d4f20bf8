import Verif.Spec.Advisory
import Verif.Spec.ReportJson
import Verif.Model.Api
/-! # What requests and responses of the API mean -/
namespace Osv.Spec
open Osv Str

/-- A query as the server reads it. -/
def readQuery (v : JVal) : Option ApiQuery := do
  let p ← lookup v g!"package"
  return { commit := ← textAt v g!"commit", version := ← textAt v g!"version", name := ← textAt p g!"name",
           ecosystem := ← textAt p g!"ecosystem" }

/-- All queries of a request. -/
def readQueries (v : JVal) : Option (List ApiQuery) := listAt readQuery v g!"queries"

/-- An advisory in a result: an object with its ID. -/
def IsVuln (id : Str) (v : JVal) : Prop := (v = .null ∧ id = []) ∨ ∃ m, v = .obj m ∧ TextField m g!"id" id

/-- The IDs in one result. -/
def IsBatchResult (ids : List Str) (v : JVal) : Prop := (v = .null ∧ ids = []) ∨ ∃ m, v = .obj m ∧ ListField IsVuln m g!"vulns" ids

/-- The IDs per result. -/
def IsBatch (rs : List (List Str)) (m : JMembers) : Prop := ListField IsBatchResult m g!"results" rs

/-- No key occurs twice or differs from a wanted one in case only. -/
def PlainBatch (m : JMembers) : Prop :=
  PlainKeys [g!"results"] m ∧ ∀ r, InList m g!"results" (.obj r) → PlainKeys [g!"vulns"] r ∧
    ∀ v, InList r g!"vulns" (.obj v) → PlainKeys [g!"id"] v

/-- Some result says that there are more advisories on another page. -/
def MorePages (m : JMembers) : Prop :=
  ∃ r token, InList m g!"results" (.obj r) ∧ Member r g!"next_page_token" (.str token) ∧ token ≠ []

end Osv.Spec
