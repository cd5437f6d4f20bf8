import Verif.Model.Osv
/-! # Descriptions of advisories -/
namespace Osv.Spec
open Osv Str

/-- `b` is the text `t` in UTF-8. -/
def Encodes (b : List UInt8) (t : Str) : Prop := b = t.flatMap String.utf8EncodeChar

/-- `text` is `details`, or its beginning and an ellipsis: at most `limit` characters, up to the last space among the first
`limit` characters if there is one. -/
inductive Shortened (limit : Nat) (details : Str) : Str → Prop
  | whole : details.length ≤ limit → Shortened limit details details
  | word (pre : Str) (sp : Char) (mid post : Str) : details = pre ++ sp :: (mid ++ post) → isSpace sp = true →
      (∀ c ∈ mid, isSpace c = false) → pre.length + 1 + mid.length = limit → Shortened limit details (pre ++ g!"...")
  | limit (pre post : Str) : details = pre ++ post → (∀ c ∈ pre, isSpace c = false) → pre.length = limit →
      Shortened limit details (pre ++ g!"...")

/-- The link to an advisory of GitHub, in parentheses. -/
def LinkText (id t : Str) : Prop :=
  (∃ r, id = g!"GHSA" ++ r ∧ t = g!" (https://github.com/advisories/" ++ id ++ g!")") ∨ ((∀ r, id ≠ g!"GHSA" ++ r) ∧ t = [])

/-- The summary, otherwise the shortened details, otherwise a note; then the link. -/
inductive Description (o : OSV) : Str → Prop
  | summary (link : Str) : o.summary ≠ [] → LinkText o.id link → Description o (o.summary ++ link)
  | details (t link : Str) : o.summary = [] → o.details ≠ [] → Shortened 80 o.details t → LinkText o.id link → Description o (t ++ link)
  | nothing (link : Str) : o.summary = [] → o.details = [] → LinkText o.id link →
      Description o (g!"(no details available)" ++ link)

end Osv.Spec
