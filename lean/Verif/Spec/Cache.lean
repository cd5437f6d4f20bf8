import Verif.Model.ZipCache
/-!
# What an archive cache should hold

Independent of how the cache is encoded or read.
-/
namespace Osv.Spec

/-- Run `r` downloaded the archive of `url`, the response had an ETag or a Date, and saving it worked:
`c` is what was saved. -/
def Stores (r : ZipRun) (url : Str) (c : Cache) : Prop :=
  r.url = url ∧ r.offline = false ∧ r.urlOk = true ∧ r.write = .complete ∧ (c.etag ≠ [] ∨ c.date ≠ []) ∧
  c.url = url ∧ r.reply = .resp 200 c.etag c.date (some c.body)

/-- `c` is what the most recent successful save of the history left for `url`, or what was there before
(`init`) if there was none. -/
def LastStored (init : Option Cache) (h : List ZipRun) (url : Str) (c : Cache) : Prop :=
  (∃ h1 r h2, h = h1 ++ r :: h2 ∧ Stores r url c ∧ ∀ r' ∈ h2, ∀ c', ¬ Stores r' url c') ∨
  ((∀ r ∈ h, ∀ c', ¬ Stores r url c') ∧ init = some c)

/-- During load `r`, after the loads `h`, the server has the archive `archive`. It sends nothing else. If it is asked with an ETag and
a date and says that nothing was modified, then `archive` is what it sent before with this ETag and date. -/
def Serving (h : List ZipRun) (r : ZipRun) (asked : Option (Option (Str × Str))) (archive : Bytes) : Prop :=
  (∀ e d b, r.reply = .resp 200 e d (some b) → b = archive) ∧
  ∀ e d, asked = some (some (e, d)) → (∃ e' d' b', r.reply = .resp 304 e' d' b') →
    ∀ r' ∈ h, r'.url = r.url → ∀ b, r'.reply = .resp 200 e d (some b) → b = archive

/-- The archive of the URL was sent completely in one of the loads. -/
def SentBefore (h : List ZipRun) (url : Str) (archive : Bytes) (date : Str) : Prop :=
  ∃ r ∈ h, r.url = url ∧ r.offline = false ∧ ∃ e, r.reply = .resp 200 e date (some archive)

end Osv.Spec
