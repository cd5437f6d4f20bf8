import Verif.Lemmas.Diagnostics
import Verif.Lemmas.Warnings
import Verif.Lemmas.CheckDiags
import Verif.Props.C82
/-!
# C86 A quiet run has read every advisory

A file in a database that cannot be read or decoded is skipped. That is said on stderr, but it changes neither the result nor the exit
code. So exit code 0 does not mean that all advisories were looked at; exit code 0 without diagnostics does.
-/
namespace Osv
open Spec World Warnings

/-- The full property: exit code 0 means that everything in the local databases that were needed was read. -/
def C86_full : Prop :=
  ∀ (S : Sorter) (env : Env) (W : World) (C : ArchiveLoads) (f : Flags), f.printVersion = false → f.listEcosystems = false →
    f.listPackages = false → W.FollowsCache C f.offline → W.FollowsDiagnostics C f.offline → (run S (env.inWorld S W) f).exit = 0 →
    ∀ c ∈ neededConfigs (env.inWorld S W) f (readOf S (env.inWorld S W) f), c.type = g!"api" ∨ AllRead W.load c f.offline

/-- The diagnostics of an archive: one for each `.json` file in the working directory that holds no advisory. -/
theorem C86_archive (decode : Str → Option OSV) (wd : Str) (es : List ZipEntry) (d : Diag) :
    d ∈ zipDiags decode wd es ↔ ∃ e ∈ es, (∃ rest, e.name = wd ++ rest) ∧ JsonName e.name ∧
      (e.content = none ∧ d = .entryUnread e.name ∨
        ∃ text, e.content = some text ∧ decode text = none ∧ d = .entryBad e.name) := by
  unfold zipDiags
  rw [List.mem_flatMap]
  refine exists_congr fun e => and_congr_right fun _ => ?_
  rw [← hasPrefix_iff, jsonName_iff]
  cases h1 : Str.hasPrefix e.name wd <;> cases h2 : Str.hasSuffix e.name g!".json" <;> simp [zipFileDiags]
  cases hc : e.content with
  | none => simp
  | some text => cases hd : decode text <;> simp [hd]

/-- The diagnostics of a directory: there are some exactly if something was not read, unless something vanished, which is an error. -/
theorem C86_directory (decode : Str → Option OSV) (names : List Str) (name : Str) (n : FNode) :
    ((walkDiags decode name n).2 = false ↔ walkNode decode names name n {} = none) ∧
    (∀ s, walkNode decode names name n {} = some s →
      ((walkDiags decode name n).1 ≠ [] ↔ Unread decode name n) ∧ ((walkDiags decode name n).1 ≠ [] ↔ s.errored = true)) := by
  have hg := walkDiags_goes decode name n
  obtain ⟨h1, h2⟩ := walkNode_spec decode names name n {}
  constructor
  · constructor
    · intro h
      rw [h] at hg
      exact h1 (Classical.byContradiction fun hn => by simpa using hg.2 hn)
    · intro h
      cases hw : (walkDiags decode name n).2 with
      | false => rfl
      | true =>
        obtain ⟨s, hs, -⟩ := h2 (hg.1 hw)
        rw [h] at hs
        cases hs
  · intro s hs
    have hn : ¬ Vanished n := by
      intro hv
      rw [h1 hv] at hs
      cases hs
    have := walkDiags_unread decode name n hn
    exact ⟨this, this.trans (C21_diagnostics decode names name n s hs).symm⟩

/-- What this program writes into the cache never leads to a message, and what a torn write leaves always does: so unless somebody
else writes there, a message about the cache appears exactly after a torn write. -/
theorem C86_cache (path : Str → Str) (h : List ZipRun) (r : ZipRun) :
    ((∀ r' ∈ h, ∀ k, r'.write ≠ .torn k) → ∀ p, .cacheParse p ∉ fetchDiags path (runHistory path (fun _ => none) h) r) ∧
    (∀ fs k c, fs (path r.url) = some ((encodeCache c).dropLast.take k) → r.readable = true →
      .cacheParse (path r.url) ∈ fetchDiags path fs r) := by
  constructor
  · intro hw p hm
    have hwhole := whole_history path (fun _ => none) h (path r.url) (fun s hs => by cases hs) hw
    generalize runHistory path (fun _ => none) h = fs at *
    have hread : readDiags fs r (path r.url) = [] := by
      unfold readDiags
      cases r.readable with
      | false => rfl
      | true =>
        cases hf : fs (path r.url) with
        | none => simp [hf]
        | some s =>
          obtain ⟨c, rfl⟩ := hwhole s hf
          simp [hf, cacheErr_encode]
    unfold fetchDiags at hm
    dsimp only at hm
    rw [hread] at hm
    split at hm
    · cases hm
    split at hm
    · cases hm
    split at hm
    · split at hm
      · simp at hm
      · cases hm
    · cases hm
  · intro fs k c hf hr
    have hread : readDiags fs r (path r.url) = [.cacheParse (path r.url)] := by
      simp [readDiags, hr, hf, cacheErr_torn]
    unfold fetchDiags
    dsimp only
    rw [hread]
    split
    · simp
    split
    · simp
    split
    · split <;> simp
    · simp

/-- A message about writing the cache appears exactly if an archive was received and the file was not completely written. -/
theorem C86_cache_write (path : Str → Str) (fs : CacheFS) (r : ZipRun) (p : Str) :
    .cacheWrite p ∈ fetchDiags path fs r ↔ p = path r.url ∧ r.offline = false ∧ r.urlOk = true ∧ r.write ≠ .complete ∧
      ∃ etag date body, r.reply = .resp 200 etag date (some body) := by
  have hread : .cacheWrite p ∉ readDiags fs r (path r.url) := by
    unfold readDiags
    split
    · simp
    · split <;> simp
  unfold fetchDiags
  dsimp only
  cases ho : r.offline with
  | true => simp [hread]
  | false =>
    cases hu : r.urlOk with
    | false => simp [hread]
    | true =>
      simp only [Bool.false_eq_true, if_false, Bool.not_true]
      cases hrep : r.reply with
      | failed => simp [hread]
      | resp status etag date body =>
        cases body with
        | none => simp [hread]
        | some b =>
          dsimp only
          by_cases hs : status = 200 ∧ r.write ≠ .complete
          · rw [if_pos hs]
            simp [hread, hs.1, hs.2]
          · rw [if_neg hs]
            simp only [hread, false_iff]
            rintro ⟨-, -, -, hw, e, d, b', h⟩
            injection h with h
            exact hs ⟨h, hw⟩

/-- A load that succeeds without diagnostics has read everything. -/
theorem C86_load (L : LoadEnv) (c : DBConfig) (offline : Bool) (batchSize : Int) (names : List Str) (ld : LoadedDB) (fetched : List Diag)
    (h : loadDB L c offline batchSize names = .ok ld) (hq : loadDiags fetched L c offline = []) :
    c.type = g!"api" ∨ AllRead L c offline := by
  unfold loadDB at h
  by_cases hz : c.type = g!"zip"
  · right
    rw [if_pos hz] at h
    unfold newZippedDB at h
    unfold loadDiags at hq
    rw [if_pos hz] at hq
    cases hf : L.fetch c.url c.workingDirectory offline with
    | panic => rw [hf] at h; cases h
    | error e => rw [hf] at h; cases h
    | ok body t =>
      rw [hf] at h hq
      dsimp only at h hq
      cases hu : L.unzip body with
      | none => rw [hu] at h; cases h
      | some es =>
        rw [hu] at hq
        dsimp only at hq
        refine .zip body t es hz hf hu fun e he hin hj => ?_
        rw [← zipFileDiags_nil]
        have := (List.append_eq_nil_iff.1 hq).2
        unfold zipDiags at this
        rw [List.flatMap_eq_nil_iff] at this
        have := this e he
        rw [inside_hasPrefix hin, (jsonName_iff _).1 hj] at this
        simpa using this
  · rw [if_neg hz] at h
    by_cases ha : c.type = g!"api"
    · exact .inl ha
    · right
      rw [if_neg ha] at h
      by_cases hd : c.type = g!"dir"
      · rw [if_pos hd] at h
        unfold newDirDB at h
        unfold loadDiags at hq
        rw [if_neg hz, if_pos hd] at hq
        cases hp : Str.hasPrefix c.url g!"file:" with
        | false => rw [hp] at h; cases h
        | true =>
          rw [hp] at h hq
          simp only [Bool.not_true, Bool.false_eq_true, if_false] at h hq
          cases hu : L.parseURI c.url with
          | none => rw [hu] at h; cases h
          | some path =>
            rw [hu] at h hq
            dsimp only at h hq
            have hv : ¬ Vanished (L.tree (Path.join2 (Str.trimPrefix path g!"/") c.workingDirectory)) := by
              intro hv
              rw [(walkNode_spec ..).1 hv] at h
              cases h
            refine .dir path hd hu hv fun hun => ?_
            exact (walkDiags_unread _ _ _ hv).2 hun hq
      · rw [if_neg hd] at h
        cases h

/-- The converse: without messages about the cache, a database that was read completely is loaded quietly, if the working directory
cannot be confused with another one (C20). -/
theorem C86_load_quiet (L : LoadEnv) (c : DBConfig) (offline : Bool)
    (hwd : c.workingDirectory = [] ∨ ∃ w, c.workingDirectory = w ++ g!"/") (h : AllRead L c offline) :
    loadDiags [] L c offline = [] := by
  cases h with
  | zip body t es type fetched unzipped all =>
    unfold loadDiags
    rw [if_pos type, fetched]
    dsimp only
    rw [unzipped]
    show zipDiags _ _ _ = []
    rw [List.eq_nil_iff_forall_not_mem]
    intro d hd
    rw [C86_archive] at hd
    obtain ⟨e, he, ⟨r, hr⟩, hj, hor⟩ := hd
    have hin : Inside c.workingDirectory e.name := by
      rcases hwd with hw | ⟨w, hw⟩
      · exact .inl hw
      · refine .inr ⟨r, ?_⟩
        rw [hr, hw]
        have : Str.trimSuffix (w ++ g!"/") g!"/" = w := by
          unfold Str.trimSuffix Str.hasSuffix
          simp
        rw [this]
    obtain ⟨o, text, hc, hdec⟩ := all e he hin hj
    rcases hor with ⟨hn, -⟩ | ⟨text', hc', hd', -⟩
    · rw [hn] at hc; cases hc
    · rw [hc] at hc'
      cases hc'
      rw [hdec] at hd'
      cases hd'
  | dir path type uri there all =>
    unfold loadDiags
    rw [if_neg (by rw [type]; decide), if_pos type]
    split
    · rfl
    · rw [uri]
      dsimp only
      exact Classical.byContradiction fun hn => all ((walkDiags_unread _ _ _ there).1 hn)

/-- The messages of a check with a local database, after any earlier checks: each is about an advisory that is not withdrawn and names
a package without saying anything about versions, and there is one for each such advisory, unless it affects the package by another
entry. -/
theorem C86_check (S : Sorter) (sem : Sem) (os : List OSV) (names : List Str) (history pkgs : List PackageDetails) :
    (∀ m ∈ ((HeapDB.load os names).check S sem history).2.checkDiags S sem pkgs,
      ∃ pkg ∈ pkgs, ∃ o ∈ os, o.id = m ∧ o.withdrawn = none ∧ Unbounded o pkg) ∧
    (∀ pkg ∈ pkgs, CmpLaws (sem pkg.compareAs) → (∀ o ∈ os, WellFormedOSV (sem pkg.compareAs) o) → ':' ∉ pkg.ecosystem →
      pkg.name ∈ names → ∀ o ∈ os, o.withdrawn = none → Unbounded o pkg →
      o.id ∈ ((HeapDB.load os names).check S sem history).2.checkDiags S sem pkgs ∨ Affects (sem pkg.compareAs) o pkg) :=
  ⟨fun m hm => checkDiags_sound os names history pkgs m hm,
    fun pkg hpkg hc hw heco hn o ho hwd hu => checkDiags_complete os names history pkgs pkg hpkg hc hw heco hn o ho hwd hu⟩

/-- Which databases a run has diagnostics about: those with diagnostics while loading, and those with diagnostics while checking. -/
theorem C86_warnings (S : Sorter) (env : Env) (f : Flags) (hl : f.listPackages = false) (p : LoopState × List DB × List FileEntry)
    (hp : runPrep S env f = .inr p) (n : Str) :
    .warning n ∈ (run S env f).events ↔
      (∃ c ∈ neededConfigs env f (readOf S env f), c.name = n ∧
        (env.load c f.offline f.batchSize (allPackageNames env (readOf S env f).files)).2 = true) ∨
      ∃ i x db, (readOf S env f).files[i]? = some x ∧ x.err = false ∧
        db ∈ forConfigs p.2.1 (p.1.cells.getD x.config {}).databases ∧ db.name = n ∧ (db.check i x.lockf.packages).2 = true := by
  rw [warning_iff, warned_run S env f hl p hp, List.mem_append, mem_loopWarns]
  refine or_congr ?_ ?_
  · simp only [List.mem_map, List.mem_filter]
    constructor
    · rintro ⟨c, ⟨h1, h2⟩, h3⟩
      exact ⟨c, h1, h3, h2⟩
    · rintro ⟨c, h1, h3, h2⟩
      exact ⟨c, ⟨h1, h2⟩, h3⟩
  · unfold checkWarns
    simp only [Nat.zero_add]
    constructor
    · rintro ⟨k, x, hx, h⟩
      split at h
      · cases h
      · rename_i he
        obtain ⟨db, hdb, rfl⟩ := List.mem_map.1 h
        obtain ⟨h1, h2⟩ := List.mem_filter.1 hdb
        exact ⟨k, x, db, hx, by simpa using he, h1, rfl, h2⟩
    · rintro ⟨k, x, db, hx, he, h1, rfl, h2⟩
      refine ⟨k, x, hx, ?_⟩
      rw [if_neg (by simp [he])]
      exact List.mem_map.2 ⟨db, List.mem_filter.2 ⟨h1, h2⟩, rfl⟩

theorem worldLoad_warns (S : Sorter) (W : World) (c : DBConfig) (offline : Bool) (batchSize : Int) (names : List Str) :
    (worldLoad S W c offline batchSize names).2 = W.warns c := by
  unfold worldLoad
  split
  · split <;> rfl
  · rfl

/-- Exit code 0 without diagnostics means that everything in the local databases that were needed was read. -/
theorem C86_quiet_partial (S : Sorter) (env : Env) (W : World) (C : ArchiveLoads) (f : Flags) (hv : f.printVersion = false)
    (hle : f.listEcosystems = false) (hl : f.listPackages = false) (hdiag : W.FollowsDiagnostics C f.offline)
    (h0 : (run S (env.inWorld S W) f).exit = 0) (hq : ∀ n, .warning n ∉ (run S (env.inWorld S W) f).events)
    (c : DBConfig) (hc : c ∈ neededConfigs (env.inWorld S W) f (readOf S (env.inWorld S W) f)) :
    c.type = g!"api" ∨ AllRead W.load c f.offline := by
  obtain ⟨-, -, -, -, z5, -⟩ := C22_exit_zero_partial S (env.inWorld S W) f hv hle h0
  obtain ⟨p, hp⟩ := started_go S (env.inWorld S W) f (exit_zero_started S (env.inWorld S W) f hv hle h0)
  have hw : W.warns c = false := by
    rw [← worldLoad_warns S W c f.offline f.batchSize
      (allPackageNames (env.inWorld S W) (readOf S (env.inWorld S W) f).files), ← Bool.not_eq_true]
    intro hw
    exact hq c.name ((C86_warnings S (env.inWorld S W) f hl p hp c.name).2 (.inl ⟨c, hc, rfl, hw⟩))
  have hload := z5 hl c hc
  rcases hdb : (worldLoad S W c f.offline f.batchSize
    (allPackageNames (env.inWorld S W) (readOf S (env.inWorld S W) f).files)).1 with _ | db
  · exact absurd hdb hload
  unfold worldLoad at hdb
  split at hdb
  · rename_i ld hld
    refine C86_load W.load c f.offline _ _ ld (C.diags c.url c.workingDirectory) hld ?_
    have := hdiag c
    rw [hw] at this
    simpa using this.symm
  · cases hdb


/-- Exit code 0 without diagnostics means for each package and each database required for it: an advisory in it that is not withdrawn
and names the package without saying anything about versions affects it by another entry, so the package is not missed. -/
theorem C86_checked_partial (S : Sorter) (env : Env) (W : World) (f : Flags) (hiter : ∀ l, (env.iter l).Perm l)
    (hv : f.printVersion = false) (hle : f.listEcosystems = false) (hl : f.listPackages = false)
    (hc : f.noConfig = false ∨ f.noConfigDatabases = false) (h0 : (run S (env.inWorld S W) f).exit = 0)
    (hq : ∀ n, .warning n ∉ (run S (env.inWorld S W) f).events)
    (x : FileEntry) (hx : x ∈ (readOf S (env.inWorld S W) f).files) (pkg : PackageDetails) (hpkg : pkg ∈ x.lockf.packages)
    (heco : ':' ∉ pkg.ecosystem) (c : DBConfig)
    (hreq : Required f ((readOf S (env.inWorld S W) f).cells.getD x.config {}).databases x.lockf.packages c) :
    ∃ d ∈ neededConfigs (env.inWorld S W) f (readOf S (env.inWorld S W) f), d.identifier = c.identifier ∧
      (d.type = g!"zip" ∨ d.type = g!"api" ∨ d.type = g!"dir") ∧
      (CmpLaws (W.sem pkg.compareAs) → (∀ o ∈ advisoriesOf W.load d f.offline, WellFormedOSV (W.sem pkg.compareAs) o) →
        ∀ o, Published W.load d f.offline o → o.withdrawn = none → Unbounded o pkg → Affects (W.sem pkg.compareAs) o pkg) := by
  obtain ⟨-, -, -, z4, z5, -⟩ := C22_exit_zero_partial S (env.inWorld S W) f hv hle h0
  obtain ⟨p, hp⟩ := started_go S (env.inWorld S W) f (exit_zero_started S (env.inWorld S W) f hv hle h0)
  obtain ⟨i, hi⟩ := List.getElem?_of_mem hx
  have he := z4 x hx
  obtain ⟨d, hdm, hde, hmine⟩ := used S (env.inWorld S W) f (inWorld_keeps env S W) hiter hl p hp x hx he c
    (hc.imp_right .inl) hreq
  have hload := z5 hl d hdm
  rcases hdb : ((env.inWorld S W).load d f.offline f.batchSize
    (allPackageNames (env.inWorld S W) (readOf S (env.inWorld S W) f).files)).1 with _ | db
  · exact absurd hdb hload
  refine ⟨d, hdm, hde, worldLoad_type S W d f.offline f.batchSize _ db hdb, ?_⟩
  intro hlaws hwf o ho hwd hu
  have hna : d.type ≠ g!"api" := by
    cases ho with
    | zip body t es e text type => rw [type]; decide
    | dir path name text type => rw [type]; decide
  have hflag := worldLoad_checkDiags S W d f.offline f.batchSize _ db hdb hna i x.lockf.packages
  have hquiet : (db.check i x.lockf.packages).2 = false := by
    rw [← Bool.not_eq_true]
    intro hw
    exact hq db.name ((C86_warnings S (env.inWorld S W) f hl p hp db.name).2 (.inr ⟨i, x, db, hi, he, hmine db hdb, rfl, hw⟩))
  rw [hquiet] at hflag
  have hnil : ((HeapDB.load (advisoriesOf W.load d f.offline) (allPackageNames (env.inWorld S W)
      (readOf S (env.inWorld S W) f).files)).check S W.sem (W.history d i)).2.checkDiags S W.sem x.lockf.packages = [] := by
    simpa using hflag.symm
  have hname := name_mem (env.inWorld S W) hiter (readOf S (env.inWorld S W) f).files x hx pkg hpkg
  rcases (C86_check S W.sem (advisoriesOf W.load d f.offline) (allPackageNames (env.inWorld S W)
      (readOf S (env.inWorld S W) f).files) (W.history d i) x.lockf.packages).2 pkg hpkg hlaws hwf heco hname o
      (published_mem _ _ _ _ ho) hwd hu with h | h
  · rw [hnil] at h
    cases h
  · exact h

/-- The whole way: exit code 0 without diagnostics, with the default databases, means that every `.json` file in the archive that the
server has now for the ecosystem of a package of a discovered lockfile is an advisory, and that it neither affects the package nor names it without saying
anything about versions, or is withdrawn or ignored, itself or through related advisories. -/
theorem C86_default_partial (S : Sorter) (env : Env) (W : World) (C : ArchiveLoads) (f : Flags) (hiter : ∀ l, (env.iter l).Perm l)
    (hgo : ∀ m, (W.parsers.iterGo m).Perm m) (ho : ∀ l, (W.parsers.order l).Perm l) (hr : ∀ p r l, (W.parsers.reqOrder p r l).Perm l)
    (hv : f.printVersion = false) (hle : f.listEcosystems = false) (hl : f.listPackages = false) (hoff : f.offline = false)
    (hud : f.useDatabases = true) (hc : f.noConfig = false ∨ f.noConfigDatabases = false) (hg : f.parseAs ≠ csvRowName)
    (hcache : W.FollowsCache C f.offline) (hdiag : W.FollowsDiagnostics C f.offline)
    (hpath : ∀ url wd, ∀ r' ∈ C.before url wd, C.path r'.url = C.path url → r'.url = url) (hinit : ∀ url, C.fs (C.path url) = none)
    (h0 : (run S (env.inWorld S W) f).exit = 0) (hq : ∀ n, .warning n ∉ (run S (env.inWorld S W) f).events)
    (want q : Str) (hd : Discovers env f.parseAs f.args want q) (n1 : want ≠ csvRowName) (n2 : want ≠ csvFileName) :
    ∃ ps, parseFile W.parsers (parserOf want q) q = some (ps, false) ∧
      ∀ pkg ∈ ps, ∀ url, url = (ecosystemDBConfig pkg.ecosystem).url → ∀ archive,
        Serving (C.before url []) (C.now url []) (C.trace url []).sent archive →
        ∃ es, W.load.unzip archive = some es ∧
          ∀ e ∈ es, JsonName e.name → ∃ o, Holds W.load.decode e o ∧
            (CmpLaws (W.sem pkg.compareAs) → (∀ o, InArchive W.load.decode es o → WellFormedOSV (W.sem pkg.compareAs) o) →
              o.withdrawn = none → Affects (W.sem pkg.compareAs) o pkg ∨ Unbounded o pkg → ∃ o', Linked o' o ∧ Excused env f q o'.id) := by
  obtain ⟨ps, hps, hall⟩ := C66_default_partial S env W f hiter hgo ho hr hv hle hl hud hc hg h0 want q hd n1 n2
  obtain ⟨ps', hps', hall'⟩ := C82_clean_exit S env W C f hiter hgo ho hr hv hle hl hoff hud hc hg hcache hpath hinit h0 want q hd n1 n2
  rw [hps] at hps'
  cases hps'
  refine ⟨ps, hps, ?_⟩
  rintro pkg hpkg url rfl archive hserv
  obtain ⟨es, hes, hmain⟩ := hall' pkg hpkg _ rfl archive hserv
  obtain ⟨ps', hps', x, hx, -, hxl⟩ := discovered_file S env W f hv hle hg h0 want q hd n1 n2
  rw [hps] at hps'
  cases hps'
  have hof := (hall pkg hpkg).1
  have hpx : pkg ∈ x.lockf.packages := by rw [hxl]; exact ((S.perm pkgLess ps).mem_iff).2 hpkg
  obtain ⟨hcolon, hne⟩ := C67_formats.2.2 _ hof.1
  obtain ⟨d', -, hdi', hdt', hcheck⟩ := C86_checked_partial S env W f hiter hv hle hl hc h0 hq x hx pkg hpx hcolon
    (ecosystemDBConfig pkg.ecosystem) (.inr (.inr ⟨hud, pkg, hpx, hne, rfl⟩))
  obtain ⟨e1, e2, e3⟩ := default_plain _ pkg hof d' hdt' hdi'
  refine ⟨es, hes, fun e he hj => ?_⟩
  obtain ⟨-, ⟨d, hdm, hdt, hdu, hdw⟩, -, -⟩ := hall pkg hpkg
  rcases C86_quiet_partial S env W C f hv hle hl hdiag h0 hq d hdm with ha | hread
  · rw [hdt] at ha
    exact absurd ha (by decide)
  · cases hread with
    | dir path type => rw [hdt] at type; exact absurd type (by decide)
    | zip body t es' type fetched unzipped all =>
      rw [hdu, hdw] at fetched
      obtain ⟨hnu, hno, hnf⟩ := hcache (ecosystemDBConfig pkg.ecosystem).url []
      have hbody : body = archive :=
        C82_current C.path C.fs (C.before (ecosystemDBConfig pkg.ecosystem).url []) (C.now (ecosystemDBConfig pkg.ecosystem).url [])
          archive body t (by rw [hnu]; exact hpath _ _) (hinit _) (hno.trans hoff) hserv (hnf.symm.trans fetched)
      subst hbody
      rw [hes] at unzipped
      cases unzipped
      obtain ⟨o, hho⟩ := all e he (.inl hdw) hj
      refine ⟨o, hho, fun hlaws hwf hwd hor => ?_⟩
      obtain ⟨text, h1, h2⟩ := hho
      refine hmain hlaws hwf o ⟨e, he, hj, text, h1, h2⟩ hwd (hor.elim id fun hu => ?_)
      refine hcheck hlaws (fun o' ho' => ?_) o
        (.zip body t es e text e1 (by rw [e2, e3]; exact fetched) hes he (.inl e3) hj h1 h2) hwd hu
      have hpub := mem_published _ _ _ _ (.inl e1) (.inl e3) ho'
      cases hpub with
      | zip body' t' es' e' text' type' fetched' unzipped' mem' inside' json' content' decoded' =>
        rw [e2, e3, fetched] at fetched'
        injection fetched' with fb _
        rw [← fb, hes] at unzipped'
        cases unzipped'
        exact hwf o' ⟨e', mem', json', text', content', decoded'⟩
      | dir path name text type => rw [e1] at type; exact absurd type (by decide)

/-! ### Samples -/

/-- The loads of the samples: each archive is downloaded and cached. -/
def cachedLoads : ArchiveLoads := { sampleLoads with now := fun url _ => ⟨url, false, true, true, .resp 200 [] [] (some []), .complete⟩ }

/-- The sample world with its diagnostics, for an archive with the files. -/
def noisyWorld (es : List ZipEntry) : World :=
  { sampleReqWorld with
    load := { sampleReqWorld.load with unzip := fun _ => some es }
    warns := fun c => !(loadDiags [] { sampleReqWorld.load with unzip := fun _ => some es } c false).isEmpty }

theorem noisyWorld_cache (es : List ZipEntry) : (noisyWorld es).FollowsCache cachedLoads false := fun _ _ => ⟨rfl, rfl, rfl⟩

theorem cachedLoads_diags (url wd : Str) : cachedLoads.diags url wd = [] := by
  unfold ArchiveLoads.diags fetchDiags readDiags cachedLoads sampleLoads runHistory
  simp

theorem noisyWorld_diagnostics (es : List ZipEntry) : (noisyWorld es).FollowsDiagnostics cachedLoads false := by
  intro c
  rw [cachedLoads_diags]
  rfl

/-- An archive with an advisory and a file that is none. -/
def halfArchive : List ZipEntry := [⟨g!"X-1.json", some g!"x"⟩, ⟨g!"X-2.json", some g!"?"⟩]

/-- The property fails: a file that is no advisory is skipped with a message on stderr, and the exit code is 0. -/
theorem C86_counterexample : ¬ C86_full := by
  intro h
  rcases h Sorter.insertion sampleReqEnv (noisyWorld halfArchive) cachedLoads sampleReqFlags rfl rfl rfl (noisyWorld_cache _)
    (noisyWorld_diagnostics _) (by decide +kernel) (ecosystemDBConfig g!"PyPI") (by decide +kernel) with ha | hr
  · exact absurd ha (by decide)
  · cases hr with
    | zip body t es type fetched unzipped all =>
      cases unzipped
      obtain ⟨o, text, hc, hd⟩ := all ⟨g!"X-2.json", some g!"?"⟩ (by simp [halfArchive]) (.inl rfl) ⟨g!"X-2", rfl⟩
      cases hc
      exact absurd hd (by simp [noisyWorld, sampleReqWorld, sampleWorld])
    | dir path type => exact absurd type (by decide)

/-- The run of the counterexample has a diagnostic; with a good archive there is none. -/
example : .warning g!"PyPI" ∈
      (run Sorter.insertion (sampleReqEnv.inWorld Sorter.insertion (noisyWorld halfArchive)) sampleReqFlags).events := by
  decide +kernel

/-- The hypotheses of `C86_quiet_partial` and `C86_default_partial` hold for a good archive. -/
example : (noisyWorld [⟨g!"X-1.json", some g!"x"⟩]).FollowsCache cachedLoads sampleReqFlags.offline ∧
    (noisyWorld [⟨g!"X-1.json", some g!"x"⟩]).FollowsDiagnostics cachedLoads sampleReqFlags.offline ∧
    (run Sorter.insertion (sampleReqEnv.inWorld Sorter.insertion (noisyWorld [⟨g!"X-1.json", some g!"x"⟩])) sampleReqFlags).exit = 0 ∧
    ((run Sorter.insertion (sampleReqEnv.inWorld Sorter.insertion (noisyWorld [⟨g!"X-1.json", some g!"x"⟩])) sampleReqFlags).events.all
      fun e => match e with | .warning _ => false | _ => true) = true ∧
    (∀ url, Serving (cachedLoads.before url []) (cachedLoads.now url []) (cachedLoads.trace url []).sent []) := by
  refine ⟨noisyWorld_cache _, noisyWorld_diagnostics _, by decide +kernel, by decide +kernel,
    fun url => ⟨fun e d b h => by cases h; rfl, ?_⟩⟩
  intro e d h
  cases h

/-- Messages of one archive: the second file cannot be read, the third is no advisory, the fourth is not JSON by name. -/
example : zipDiags (fun s => if s = g!"x" then some { id := [] } else none) g!"w/"
    [⟨g!"w/1.json", some g!"x"⟩, ⟨g!"w/2.json", none⟩, ⟨g!"w/3.json", some g!"y"⟩, ⟨g!"w/4.txt", some g!"y"⟩, ⟨g!"v/5.json", none⟩] =
    [.entryUnread g!"w/2.json", .entryBad g!"w/3.json"] := by decide +kernel

/-- A message about an advisory without ranges and versions; none if an earlier entry affects the package. -/
def bareAdvisory (first : List Affected) : OSV := { id := g!"X-2", affected := first ++ [{ package := ⟨g!"a", g!"npm"⟩ }] }

example : let pkg : PackageDetails := { name := g!"a", version := g!"1", ecosystem := g!"npm", compareAs := g!"npm" }
    (HeapDB.load [bareAdvisory []] [g!"a"]).checkDiags Sorter.insertion numSem [pkg] = [g!"X-2"] ∧
    (HeapDB.load [bareAdvisory [{ package := ⟨g!"a", g!"npm"⟩, versions := [g!"1"] }]] [g!"a"]).checkDiags Sorter.insertion numSem
      [pkg] = [] := by decide +kernel

/-- A torn write leads to a message in the next run, which downloads again. -/
example : let torn : ZipRun := ⟨g!"u", false, true, true, .resp 200 g!"e" g!"d" (some [1]), .torn 5⟩
    fetchDiags id (fun _ => none) torn = [.cacheWrite g!"u"] ∧
    fetchDiags id (runHistory id (fun _ => none) [torn]) { torn with write := .complete } = [.cacheParse g!"u"] := by decide +kernel

end Osv
