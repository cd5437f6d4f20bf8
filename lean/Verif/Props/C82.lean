import Verif.Model.WorldCache
import Verif.Props.C18
import Verif.Props.C66
/-!
# C82 Online runs use the archive that the server has now

The cache may save a download, but it must not make a run miss what has been published since.
-/
namespace Osv
open Spec World

/-- An archive that was loaded while online is the one that the server has at that time, whatever the cache went through before:
failed downloads, torn writes, unreadable files. -/
theorem C82_current (path : Str → Str) (fs : CacheFS) (h : List ZipRun) (r : ZipRun) (archive body : Bytes) (date : Str)
    (hpath : ∀ r' ∈ h, path r'.url = path r.url → r'.url = r.url) (hinit : fs (path r.url) = none) (hon : r.offline = false)
    (hserv : Serving h r (fetchZip path (runHistory path fs h) r).sent archive)
    (hok : (fetchZip path (runHistory path fs h) r).result = .ok body date) : body = archive := by
  rcases C18_ok_cases path _ r body date hok with ho | ⟨e, he⟩ | ⟨⟨e, d, b, hr⟩, ⟨e0, d0⟩, hsent⟩
  · rw [hon] at ho; cases ho
  · exact hserv.1 _ _ _ he
  · obtain ⟨c, hlast, he0, hd0, hres⟩ := C18_not_modified path fs h r e0 d0 hpath hsent
    have hb := hres e d b hr
    rw [hok] at hb
    injection hb with hb _
    rw [hinit] at hlast
    rcases hlast with ⟨h1, r', h2, hh, hst, -⟩ | ⟨-, hn⟩
    · obtain ⟨s1, -, -, -, -, -, s7⟩ := hst
      rw [hb]
      refine hserv.2 e0 d0 hsent ⟨e, d, b, hr⟩ r' (by rw [hh]; simp) s1 _ ?_
      rw [he0, hd0]
      exact s7
    · cases hn

/-- Offline, and after any 304, the archive is one that the server has sent before. -/
theorem C82_sent_before (path : Str → Str) (fs : CacheFS) (h : List ZipRun) (r : ZipRun) (body : Bytes) (date : Str)
    (hpath : ∀ r' ∈ h, path r'.url = path r.url → r'.url = r.url) (hinit : fs (path r.url) = none)
    (hok : (fetchZip path (runHistory path fs h) r).result = .ok body date) :
    SentBefore (h ++ [r]) r.url body date := by
  have hold : ∀ c, LastStored ((fs (path r.url)).bind decodeCache) h r.url c → SentBefore (h ++ [r]) r.url c.body c.date := by
    intro c hlast
    rw [hinit] at hlast
    rcases hlast with ⟨h1, r', h2, hh, ⟨s1, s2, -, -, -, -, s7⟩, -⟩ | ⟨-, hn⟩
    · exact ⟨r', by rw [hh]; simp, s1, s2, c.etag, s7⟩
    · cases hn
  cases hoff : r.offline with
  | true =>
    obtain ⟨c, hlast, rfl, rfl⟩ := C18_offline path fs h r body date hpath hoff hok
    exact hold c hlast
  | false =>
    rcases C18_ok_cases path _ r body date hok with ho | ⟨e, he⟩ | ⟨⟨e, d, b, hr⟩, ⟨e0, d0⟩, hsent⟩
    · rw [hoff] at ho; cases ho
    · exact ⟨r, by simp, rfl, hoff, e, he⟩
    · obtain ⟨c, hlast, -, -, hres⟩ := C18_not_modified path fs h r e0 d0 hpath hsent
      have hb := hres e d b hr
      rw [hok] at hb
      injection hb with hb hd
      rw [hb, hd]
      exact hold c hlast

/-- The whole way: if a run with the default databases that may use the network ends with exit code 0, each discovered lockfile was
parsed, and each advisory in the archive that the server has now for the ecosystem of a package and that affects the package is
ignored, itself or through related advisories. -/
theorem C82_clean_exit (S : Sorter) (env : Env) (W : World) (C : ArchiveLoads) (f : Flags) (hiter : ∀ l, (env.iter l).Perm l)
    (hgo : ∀ m, (W.parsers.iterGo m).Perm m) (ho : ∀ l, (W.parsers.order l).Perm l) (hr : ∀ p r l, (W.parsers.reqOrder p r l).Perm l)
    (hv : f.printVersion = false) (hle : f.listEcosystems = false) (hl : f.listPackages = false) (hoff : f.offline = false)
    (hud : f.useDatabases = true) (hc : f.noConfig = false ∨ f.noConfigDatabases = false) (hg : f.parseAs ≠ csvRowName)
    (hcache : W.FollowsCache C f.offline)
    (hpath : ∀ url wd, ∀ r' ∈ C.before url wd, C.path r'.url = C.path url → r'.url = url) (hinit : ∀ url, C.fs (C.path url) = none)
    (h0 : (run S (env.inWorld S W) f).exit = 0) (want q : Str) (hd : Discovers env f.parseAs f.args want q)
    (n1 : want ≠ csvRowName) (n2 : want ≠ csvFileName) :
    ∃ ps, parseFile W.parsers (parserOf want q) q = some (ps, false) ∧
      ∀ pkg ∈ ps, ∀ url, url = (ecosystemDBConfig pkg.ecosystem).url → ∀ archive,
        Serving (C.before url []) (C.now url []) (C.trace url []).sent archive →
        ∃ es, W.load.unzip archive = some es ∧
          (CmpLaws (W.sem pkg.compareAs) → (∀ o, InArchive W.load.decode es o → WellFormedOSV (W.sem pkg.compareAs) o) →
            ∀ o, InArchive W.load.decode es o → o.withdrawn = none → Affects (W.sem pkg.compareAs) o pkg →
            ∃ o', Linked o' o ∧ Excused env f q o'.id) := by
  obtain ⟨ps, hps, hall⟩ := C66_default_partial S env W f hiter hgo ho hr hv hle hl hud hc hg h0 want q hd n1 n2
  refine ⟨ps, hps, ?_⟩
  rintro pkg hpkg url rfl archive hserv
  obtain ⟨-, -, ⟨body, t, es, hf, hu⟩, hmain⟩ := hall pkg hpkg
  obtain ⟨hnu, hno, hnf⟩ := hcache (ecosystemDBConfig pkg.ecosystem).url []
  have hbody : body = archive := by
    refine C82_current C.path C.fs (C.before (ecosystemDBConfig pkg.ecosystem).url []) (C.now (ecosystemDBConfig pkg.ecosystem).url [])
      archive body t (by rw [hnu]; exact hpath _ _) (hinit _) (hno.trans hoff) hserv ?_
    exact hnf.symm.trans hf
  subst hbody
  refine ⟨es, hu, ?_⟩
  intro hlaws hwf o hin
  have hpub : ∀ o, Published W.load (ecosystemDBConfig pkg.ecosystem) f.offline o ↔ InArchive W.load.decode es o := by
    intro o
    constructor
    · intro h
      cases h with
      | zip body' t' es' e text type fetched unzipped mem inside json content decoded =>
        rw [show W.load.fetch (ecosystemDBConfig pkg.ecosystem).url (ecosystemDBConfig pkg.ecosystem).workingDirectory f.offline =
          .ok body t from hf] at fetched
        injection fetched with fb _
        rw [← fb, hu] at unzipped
        cases unzipped
        exact ⟨e, mem, json, text, content, decoded⟩
      | dir path name text type => exact absurd type (show g!"zip" ≠ g!"dir" by decide)
    · rintro ⟨e, mem, json, text, content, decoded⟩
      exact .zip body t es e text rfl hf hu mem (.inl rfl) json content decoded
  exact hmain hlaws (fun o ho => hwf o ((hpub o).1 ho)) o ((hpub o).2 hin)

/-! ### Samples -/

/-- A download, a torn download of a newer archive, a failed request, and a download that is kept. -/
def freshHistory : List ZipRun :=
  [⟨g!"u", false, true, true, .resp 200 g!"e1" g!"d1" (some [1]), .complete⟩,
   ⟨g!"u", false, true, true, .resp 200 g!"e2" g!"d2" (some [2]), .torn 5⟩,
   ⟨g!"u", false, true, true, .failed, .untouched⟩,
   ⟨g!"u", false, true, true, .resp 200 g!"e3" g!"d3" (some [3]), .complete⟩]

/-- The server says that nothing was modified. -/
def freshRun : ZipRun := ⟨g!"u", false, true, true, .resp 304 [] [] none, .untouched⟩

example : (fetchZip id (runHistory id (fun _ => none) freshHistory) freshRun).sent = some (some (g!"e3", g!"d3")) ∧
    (fetchZip id (runHistory id (fun _ => none) freshHistory) freshRun).result = .ok [3] g!"d3" ∧
    Serving freshHistory freshRun (some (some (g!"e3", g!"d3"))) [3] := by
  refine ⟨by decide +kernel, by decide +kernel, ⟨fun e d b h => (by cases h), ?_⟩⟩
  intro e d h _ r' hr' _ b hb
  cases h
  simp only [freshHistory, List.mem_cons, List.not_mem_nil, or_false] at hr'
  rcases hr' with rfl | rfl | rfl | rfl <;> cases hb
  rfl

/-- The loads of the sample of `C66_default_partial`: each archive is downloaded. -/
def sampleLoads : ArchiveLoads where
  path := id
  fs := fun _ => none
  before _ _ := []
  now url _ := ⟨url, false, true, true, .resp 200 [] [] (some []), .untouched⟩

example : sampleReqWorld.FollowsCache sampleLoads sampleReqFlags.offline ∧
    (∀ url, Serving (sampleLoads.before url []) (sampleLoads.now url []) (sampleLoads.trace url []).sent []) ∧
    sampleReqFlags.offline = false ∧ sampleReqFlags.useDatabases = true := by
  refine ⟨fun url wd => ⟨rfl, rfl, rfl⟩, fun url => ⟨fun e d b h => by cases h; rfl, ?_⟩, rfl, rfl⟩
  intro e d h
  cases h

end Osv
