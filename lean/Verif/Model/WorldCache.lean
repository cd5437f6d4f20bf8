import Verif.Model.World
import Verif.Model.ZipCache
/-!
# The world with its archive cache

`LoadEnv.fetch` leaves open where archives come from. Here they come from `fetchZip` (`pkg/database/zip.go:51-128`), called in
`load` (`pkg/database/zip.go:175-181`) after any earlier loads, of this run or of others.
-/
namespace Osv

/-- The loads of archives that go through one cache directory. -/
structure ArchiveLoads where
  /-- `cachePath` (`pkg/database/zip.go:44-49`) -/
  path : Str → Str
  /-- the files before the first load -/
  fs : CacheFS
  /-- all loads before the one for a URL and working directory -/
  before : Str → Str → List ZipRun
  /-- the load for a URL and working directory -/
  now : Str → Str → ZipRun

/-- The visible effects of the load for a URL and working directory. -/
def ArchiveLoads.trace (C : ArchiveLoads) (url wd : Str) : FetchTrace :=
  fetchZip C.path (runHistory C.path C.fs (C.before url wd)) (C.now url wd)

/-- Archives are loaded through the cache. -/
def World.FollowsCache (W : World) (C : ArchiveLoads) (offline : Bool) : Prop :=
  ∀ url wd, (C.now url wd).url = url ∧ (C.now url wd).offline = offline ∧ W.load.fetch url wd offline = (C.trace url wd).result

end Osv
