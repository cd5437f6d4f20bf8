import Verif.Model.World
import Verif.Spec.World
import Verif.Props.C03
import Verif.Props.C05
import Verif.Props.C11
import Verif.Props.C17
import Verif.Props.C20
import Verif.Props.C21
import Verif.Props.C22
import Verif.Props.C26
import Verif.Props.C32
/-! From the text of lockfiles and advisories to the report. -/
namespace Osv.World
open Osv Spec

/-! ### Local databases -/

theorem wellFormedRanges_of {cmp : Str → Str → Int} {o : OSV} (h : WellFormedOSV cmp o) : WellFormedRanges cmp o :=
  fun a ha r hr _ => (h a ha r hr).2

theorem related_congr {a b a' b' : OSV} (ha : a'.id = a.id) (ha' : a'.aliases = a.aliases) (hb : b'.id = b.id)
    (hb' : b'.aliases = b.aliases) (h : Related a b) : Related a' b' := by
  unfold Related at *
  rw [ha, ha', hb, hb']
  exact h

/-- The current content of a database, after any checks, differs from what was loaded only in the order of events. -/
theorem heap_after (S : Sorter) (sem : Sem) (os : List OSV) (names : List Str) (history : List PackageDetails) (i : Nat) :
    (((HeapDB.load os names).check S sem history).2.heap i).id = (os.getD i default).id ∧
    (((HeapDB.load os names).check S sem history).2.heap i).aliases = (os.getD i default).aliases := by
  have hs := permSim S sem (fun _ => True)
  have hg0 : ∀ i, GoodOSV (fun _ => True) ((HeapDB.load os names).heap i) := fun _ _ _ _ _ _ => trivial
  obtain ⟨h1, -⟩ := check_sim hs hg0 (HeapDB.load os names) (heapSim_refl hs.refl _) history (fun _ _ => trivial)
  obtain ⟨h2, h3, -⟩ := h1 i
  exact ⟨h2, h3⟩

/-- The answers of the ranges of an advisory for a package do not depend on the order of the events. -/
def Steady (S : Sorter) (sem : Sem) (pkg : PackageDetails) (o : OSV) : Prop :=
  ∀ a ∈ o.affected, ∀ r ∈ a.ranges, ∀ es, es.Perm r.events →
    (⟨r.type, es⟩ : AffectsRange).containsVersion S sem pkg = r.containsVersion S sem pkg

theorem steady_of_laws (S : Sorter) {sem : Sem} {pkg : PackageDetails} (hc : CmpLaws (sem pkg.compareAs)) {o : OSV}
    (hw : WellFormedOSV (sem pkg.compareAs) o) : Steady S sem pkg o := by
  intro a ha r hr es hp
  exact C01_event_order_irrelevant S S sem r.type es r.events hp pkg hc ((hw a ha r hr).2.perm hc hp.symm)

/-- `C02_refines_pure_partial` where only the independence of the order of events is known. -/
theorem refines_steady (S : Sorter) (sem : Sem) (os : List OSV) (names : List Str) (history : List PackageDetails) (pkg : PackageDetails)
    (hst : ∀ o ∈ os, Steady S sem pkg o) :
    ((((HeapDB.load os names).check S sem history).2.affecting S sem pkg).1).map (fun i => os.getD i default) =
      (MemDB.loadAll os names).vulnerabilitiesAffectingPackage S sem pkg := by
  let Good : AffectsRange → Prop := fun r => ∀ es, es.Perm r.events →
    (⟨r.type, es⟩ : AffectsRange).containsVersion S sem pkg = r.containsVersion S sem pkg
  have hs := permSim S sem Good
  have hg : ∀ o ∈ os, GoodOSV Good o := fun o ho a ha r hr _ => hst o ho a ha r hr
  have hg0 : ∀ i, GoodOSV Good ((HeapDB.load os names).heap i) := by
    intro i
    show GoodOSV _ (os.getD i default)
    rw [List.getD_eq_getElem?_getD]
    cases hx : os[i]? with
    | none => intro a ha; simp [default] at ha
    | some o => exact hg o (List.mem_of_getElem? hx)
  obtain ⟨h1, h2⟩ := check_sim hs hg0 (HeapDB.load os names) (heapSim_refl hs.refl _) history (fun _ _ => trivial)
  refine affecting_eq hs os names hg pkg trivial ?_ _ h1 h2
  intro r r' hgood hr
  have := hgood r'.events hr.2.symm
  rw [← hr.1] at this
  exact this

/-- The answer for the package at position `k` is that of the pure database, up to the order of events. -/
theorem answer_steady (S : Sorter) (sem : Sem) (os : List OSV) (names : List Str) (history pkgs : List PackageDetails) (k : Nat)
    (pkg : PackageDetails) (hk : pkgs[k]? = some pkg) (hst : ∀ o ∈ os, Steady S sem pkg o) :
    ∃ is : List Nat,
      is.map (fun i => os.getD i default) = (MemDB.loadAll os names).vulnerabilitiesAffectingPackage S sem pkg ∧
      (((HeapDB.load os names).check S sem history).2.answer S sem pkgs)[k]? =
        some (is.map ((HeapDB.load os names).check S sem (history ++ pkgs)).2.heap) := by
  obtain ⟨hlt, hget⟩ := List.getElem?_eq_some_iff.1 hk
  have hpos := C11_positional S sem ((HeapDB.load os names).check S sem history).2 pkgs k hlt
  rw [hget] at hpos
  refine ⟨(((HeapDB.load os names).check S sem (history ++ pkgs.take k)).2.affecting S sem pkg).1, ?_, ?_⟩
  · exact refines_steady S sem os names _ pkg hst
  · unfold HeapDB.answer
    dsimp only
    rw [List.getElem?_map, hpos]
    rw [check_append, check_append]
    rfl

theorem answer_at (S : Sorter) (sem : Sem) (os : List OSV) (names : List Str) (history pkgs : List PackageDetails) (k : Nat)
    (pkg : PackageDetails) (hk : pkgs[k]? = some pkg) (hc : CmpLaws (sem pkg.compareAs))
    (hw : ∀ o ∈ os, WellFormedOSV (sem pkg.compareAs) o) :
    ∃ is : List Nat,
      is.map (fun i => os.getD i default) = (MemDB.loadAll os names).vulnerabilitiesAffectingPackage S sem pkg ∧
      (((HeapDB.load os names).check S sem history).2.answer S sem pkgs)[k]? =
        some (is.map ((HeapDB.load os names).check S sem (history ++ pkgs)).2.heap) :=
  answer_steady S sem os names history pkgs k pkg hk fun o ho => steady_of_laws S hc (hw o ho)

theorem answer_complete (S : Sorter) (sem : Sem) (os : List OSV) (names : List Str) (history pkgs : List PackageDetails) (k : Nat)
    (pkg : PackageDetails) (hk : pkgs[k]? = some pkg) (hst : ∀ o ∈ os, Steady S sem pkg o) (heco : ':' ∉ pkg.ecosystem)
    (hn : pkg.name ∈ names) (o : OSV) (ho : o ∈ os) (hwd : o.withdrawn = none) (ha : o.isAffected S sem pkg = true) :
    ∃ vs v, (((HeapDB.load os names).check S sem history).2.answer S sem pkgs)[k]? = some vs ∧ v ∈ vs ∧ Related v o := by
  obtain ⟨is, h1, h2⟩ := answer_steady S sem os names history pkgs k pkg hk hst
  obtain ⟨r, hr, hrel⟩ := C03_complete_partial S sem os pkg o heco ho hwd ha
  rw [← C05_filter_transparent S sem os names pkg hn, ← h1] at hr
  obtain ⟨i, hi, rfl⟩ := List.mem_map.1 hr
  obtain ⟨hid, hal⟩ := heap_after S sem os names (history ++ pkgs) i
  exact ⟨_, _, h2, List.mem_map_of_mem hi, related_congr hid hal rfl rfl hrel⟩

theorem answer_sound_steady (S : Sorter) (sem : Sem) (os : List OSV) (names : List Str) (history pkgs : List PackageDetails) (k : Nat)
    (pkg : PackageDetails) (hk : pkgs[k]? = some pkg) (hst : ∀ o ∈ os, Steady S sem pkg o) (vs : List OSV)
    (hvs : (((HeapDB.load os names).check S sem history).2.answer S sem pkgs)[k]? = some vs) (v : OSV) (hv : v ∈ vs) :
    ∃ o ∈ os, v.id = o.id ∧ v.aliases = o.aliases ∧ o.withdrawn = none ∧ o.isAffected S sem pkg = true := by
  obtain ⟨is, h1, h2⟩ := answer_steady S sem os names history pkgs k pkg hk hst
  rw [h2] at hvs
  cases hvs
  obtain ⟨i, hi, rfl⟩ := List.mem_map.1 hv
  obtain ⟨hid, hal⟩ := heap_after S sem os names (history ++ pkgs) i
  have hm : os.getD i default ∈ (MemDB.loadAll os names).vulnerabilitiesAffectingPackage S sem pkg := by
    rw [← h1]; exact List.mem_map_of_mem hi
  obtain ⟨a, b, c⟩ := C03_sound S sem os names pkg _ hm
  exact ⟨_, a, hid, hal, b, c⟩

theorem answer_sound (S : Sorter) (sem : Sem) (os : List OSV) (names : List Str) (history pkgs : List PackageDetails) (k : Nat)
    (pkg : PackageDetails) (hk : pkgs[k]? = some pkg) (hc : CmpLaws (sem pkg.compareAs))
    (hw : ∀ o ∈ os, WellFormedOSV (sem pkg.compareAs) o) (vs : List OSV)
    (hvs : (((HeapDB.load os names).check S sem history).2.answer S sem pkgs)[k]? = some vs) (v : OSV) (hv : v ∈ vs) :
    ∃ o ∈ os, v.id = o.id ∧ v.aliases = o.aliases ∧ o.withdrawn = none ∧ Affects (sem pkg.compareAs) o pkg := by
  obtain ⟨o, a, b, c, d, e⟩ := answer_sound_steady S sem os names history pkgs k pkg hk (fun o ho => steady_of_laws S hc (hw o ho)) vs hvs v hv
  exact ⟨o, a, b, c, d, (isAffected_iff_affects S sem _ pkg hc (hw _ a)).1 e⟩

/-! ### Loading -/

mutual
theorem walkAdvisories_eq (decode : Str → Option OSV) (name : Str) (n : FNode) :
    walkAdvisories decode name n = readable decode (files name n) := by
  match n with
  | .gone => rfl
  | .file content =>
    unfold walkAdvisories files readable
    split
    · rename_i h; cases hc : content.bind decode <;> simp [h, hc]
    · rename_i h; simp [h]
  | .locked => rfl
  | .dir entries => exact walkAllAdvisories_eq decode entries
theorem walkAllAdvisories_eq (decode : Str → Option OSV) (l : FList) :
    walkAllAdvisories decode l = readable decode (filesIn l) := by
  match l with
  | .nil => rfl
  | .cons name node rest =>
    unfold walkAllAdvisories filesIn
    rw [readable_append, walkAdvisories_eq decode name node, walkAllAdvisories_eq decode rest]
end

/-- The database that is loaded consists of `advisoriesOf`. -/
theorem loadDB_advisories (L : LoadEnv) (c : DBConfig) (offline : Bool) (batchSize : Int) (names : List Str) (ld : LoadedDB)
    (h : loadDB L c offline batchSize names = .ok ld) :
    (∃ u, ld.kind = .zip (MemDB.loadAll (advisoriesOf L c offline) names) u) ∨
    ld.kind = .dir (MemDB.loadAll (advisoriesOf L c offline) names) ∨ (c.type = g!"api" ∧ ld.kind = .api batchSize) := by
  unfold loadDB at h
  split at h
  · rename_i ht
    unfold newZippedDB at h
    split at h
    · cases h
    · cases h
    · rename_i body u hf
      split at h
      · cases h
      · rename_i es hes
        cases h
        refine .inl ⟨u, ?_⟩
        unfold advisoriesOf
        rw [if_pos ht, hf]
        dsimp only
        rw [hes, Option.getD_some]
        rw [loadZipEntries_eq L.decode c.workingDirectory names es
          (fun n => (Str.hasPrefix n c.workingDirectory && Str.hasSuffix n g!".json") = true) (fun e _ => by simp)]
        unfold wanted zipAdvisories
        simp
  · rename_i ht
    split at h
    · rename_i ht2
      have := C17_identity L c offline batchSize names ld (by unfold loadDB; rw [if_neg ht, if_pos ht2]; exact h)
      exact .inr (.inr ⟨ht2, (this.2.2.2.1 ht2).2.2⟩)
    · split at h
      · rename_i ht3
        unfold newDirDB at h
        split at h
        · cases h
        · split at h
          · cases h
          · rename_i path hu
            dsimp only at h
            split at h
            · cases h
            · rename_i s hs
              cases h
              refine .inr (.inl ?_)
              unfold advisoriesOf
              rw [if_neg ht, hu]
              dsimp only
              rw [walkAdvisories_eq]
              have hnv : ¬ Vanished (L.tree (Path.join2 (Str.trimPrefix path g!"/") c.workingDirectory)) := by
                intro hv
                rw [(walkNode_spec L.decode names _ _ {}).1 hv] at hs
                cases hs
              obtain ⟨s', hs', hdb⟩ := (walkNode_spec L.decode names _ _ {}).2 hnv
              rw [hs'] at hs
              cases hs
              rw [hdb]
              rfl
      · cases h

theorem published_mem (L : LoadEnv) (c : DBConfig) (offline : Bool) (o : OSV) (h : Published L c offline o) :
    o ∈ advisoriesOf L c offline := by
  cases h with
  | zip body t es e text type fetched unzipped mem inside json content decoded =>
    unfold advisoriesOf
    rw [if_pos type, fetched]
    dsimp only
    rw [unzipped, Option.getD_some]
    unfold zipAdvisories
    refine List.mem_filterMap.2 ⟨e, List.mem_filter.2 ⟨mem, ?_⟩, by rw [content]; exact decoded⟩
    rw [Bool.and_eq_true]
    exact ⟨inside_hasPrefix inside, (jsonName_iff _).1 json⟩
  | dir path name text type uri mem json decoded =>
    unfold advisoriesOf
    rw [if_neg (by rw [type]; decide), uri]
    dsimp only
    rw [walkAdvisories_eq]
    unfold readable
    exact List.mem_filterMap.2 ⟨_, mem, by rw [if_pos ((jsonName_iff _).1 json)]; exact decoded⟩

/-- The converse, if the working directory of an archive cannot be confused with another one (C20). -/
theorem mem_published (L : LoadEnv) (c : DBConfig) (offline : Bool) (o : OSV) (ht : c.type = g!"zip" ∨ c.type = g!"dir")
    (hwd : c.workingDirectory = [] ∨ ∃ w, c.workingDirectory = w ++ g!"/") (h : o ∈ advisoriesOf L c offline) :
    Published L c offline o := by
  unfold advisoriesOf at h
  split at h
  · rename_i type
    split at h
    · rename_i body t hf
      cases hu : L.unzip body with
      | none => rw [hu] at h; cases h
      | some es =>
        rw [hu, Option.getD_some] at h
        unfold zipAdvisories at h
        obtain ⟨e, he, hd⟩ := List.mem_filterMap.1 h
        obtain ⟨hes, hc⟩ := List.mem_filter.1 he
        rw [Bool.and_eq_true] at hc
        obtain ⟨text, ht, hdec⟩ := Option.bind_eq_some_iff.1 hd
        refine .zip body t es e text type hf hu hes ?_ ((jsonName_iff _).2 hc.2) ht hdec
        rcases hwd with hw | ⟨w, hw⟩
        · exact .inl hw
        · obtain ⟨r, hr⟩ := (hasPrefix_iff _ _).1 hc.1
          refine .inr ⟨r, ?_⟩
          rw [hr, hw]
          have : Str.trimSuffix (w ++ g!"/") g!"/" = w := by
            unfold Str.trimSuffix Str.hasSuffix
            simp
          rw [this]
    · cases h
  · rename_i type
    split at h
    · cases h
    · rename_i path hu
      dsimp only at h
      rw [walkAdvisories_eq] at h
      unfold readable at h
      obtain ⟨⟨n, content⟩, hm, hd⟩ := List.mem_filterMap.1 h
      split at hd
      · rename_i hj
        obtain ⟨text, rfl, hdec⟩ := Option.bind_eq_some_iff.1 hd
        refine .dir path n text ?_ hu hm ((jsonName_iff _).2 hj) hdec
        rcases ht with h | h
        · exact absurd h type
        · exact h
      · cases hd

/-- The database of a config that is not of type `api`. -/
theorem worldLoad_local (S : Sorter) (W : World) (c : DBConfig) (offline : Bool) (batchSize : Int) (names : List Str) (db : DB)
    (h : (worldLoad S W c offline batchSize names).1 = some db) (ht : c.type ≠ g!"api") (n : Nat) (pkgs : List PackageDetails) :
    db.answer n pkgs =
      some (((HeapDB.load (advisoriesOf W.load c offline) names).check S W.sem (W.history c n)).2.answer S W.sem pkgs) := by
  unfold worldLoad at h
  split at h
  · rename_i ld hld
    rcases loadDB_advisories W.load c offline batchSize names ld hld with ⟨u, hk⟩ | hk | ⟨ha, -⟩
    · rw [hk] at h; cases h; rfl
    · rw [hk] at h; cases h; rfl
    · exact absurd ha ht
  · cases h

theorem worldLoad_identifier (S : Sorter) (W : World) (c : DBConfig) (offline : Bool) (batchSize : Int) (names : List Str) (db : DB)
    (h : (worldLoad S W c offline batchSize names).1 = some db) : db.identifier = c.identifier := by
  unfold worldLoad at h
  split at h
  · rename_i ld hld
    have := (C17_identity W.load c offline batchSize names ld hld).2.1
    split at h <;> (cases h; exact this)
  · cases h

theorem worldLoad_type (S : Sorter) (W : World) (c : DBConfig) (offline : Bool) (batchSize : Int) (names : List Str) (db : DB)
    (h : (worldLoad S W c offline batchSize names).1 = some db) : c.type = g!"zip" ∨ c.type = g!"api" ∨ c.type = g!"dir" := by
  unfold worldLoad at h
  split at h
  · rename_i ld hld
    unfold loadDB at hld
    split at hld
    · exact .inl ‹_›
    · split at hld
      · exact .inr (.inl ‹_›)
      · split at hld
        · exact .inr (.inr ‹_›)
        · cases hld
  · cases h

/-- The archive of a loaded zip database was fetched and could be opened. -/
theorem worldLoad_archive (S : Sorter) (W : World) (c : DBConfig) (offline : Bool) (batchSize : Int) (names : List Str) (db : DB)
    (h : (worldLoad S W c offline batchSize names).1 = some db) (ht : c.type = g!"zip") :
    ∃ body t es, W.load.fetch c.url c.workingDirectory offline = .ok body t ∧ W.load.unzip body = some es := by
  unfold worldLoad at h
  split at h
  · rename_i ld hld
    unfold loadDB newZippedDB at hld
    rw [if_pos ht] at hld
    split at hld
    · cases hld
    · cases hld
    · rename_i body t hf
      split at hld
      · cases hld
      · rename_i es hu
        exact ⟨body, t, es, hf, hu⟩
  · cases h

theorem inWorld_keeps (env : Env) (S : Sorter) (W : World) : KeepsIdentifier (env.inWorld S W) :=
  fun c off n names db h => worldLoad_identifier S W c off n names db h

/-! ### The run -/

theorem adjust_ignores (env : Env) (f : Flags) (files : List FileEntry) (cells : List Config) (k : Nat) :
    ignoresFor f ((adjustExtraDatabases env f files cells).getD k {}) = ignoresFor f (cells.getD k {}) := by
  unfold adjustExtraDatabases
  induction files generalizing cells with
  | nil => rfl
  | cons x xs ih =>
    rw [List.foldl_cons, ih]
    unfold adjustStep
    split
    · rfl
    · dsimp only
      rw [getD_set]
      split
      · rename_i hk
        obtain ⟨rfl, -⟩ := hk
        rfl
      · rfl

theorem exit_zero_started (S : Sorter) (env : Env) (f : Flags) (hv : f.printVersion = false) (hle : f.listEcosystems = false)
    (h : (run S env f).exit = 0) : Started f (run S env f).events := by
  refine ⟨hv, hle, ?_⟩
  intro m hm
  exact absurd hm ((C22_exit_zero_partial S env f hv hle h).1 m)

/-- With `--use-api` the API is among the databases of every file. -/
theorem adjust_api (env : Env) (f : Flags) (hu : f.useAPI = true) (files : List FileEntry) (cells : List Config) (k : Nat)
    (h : (∃ d ∈ (cells.getD k {}).databases, d.identifier = apiDBConfig.identifier) ∨
      (k < cells.length ∧ ∃ x ∈ files, x.err = false ∧ x.config = k)) :
    ∃ d ∈ ((adjustExtraDatabases env f files cells).getD k {}).databases, d.identifier = apiDBConfig.identifier := by
  induction files generalizing cells with
  | nil =>
    rcases h with h | ⟨_, x, hx, _⟩
    · exact h
    · cases hx
  | cons y ys ih =>
    have hstep : adjustExtraDatabases env f (y :: ys) cells = adjustExtraDatabases env f ys (adjustStep env f cells y) := rfl
    rw [hstep]
    apply ih
    rw [adjustStep_getD, adjustStep_length]
    split
    · refine .inl (firsts_mem _ _ (List.mem_append.2 (.inr ?_)))
      unfold extraConfigs
      rw [hu]
      simp
    · rename_i hn
      rcases h with h | ⟨hlt, x, hx, he, hk⟩
      · exact .inl h
      · rcases List.mem_cons.1 hx with rfl | hx
        · exact absurd ⟨he, hk, hlt⟩ hn
        · exact .inr ⟨hlt, x, hx, he, hk⟩

/-- A database that is required for a file is used for it, or another one with the same identifier. -/
theorem used (S : Sorter) (env : Env) (f : Flags) (hk : KeepsIdentifier env) (hiter : ∀ l, (env.iter l).Perm l)
    (hl : f.listPackages = false) (p : LoopState × List DB × List FileEntry) (hp : runPrep S env f = .inr p)
    (x : FileEntry)
    (hxm : x ∈ (readOf S env f).files) (he : x.err = false) (c : DBConfig)
    (hc : f.noConfig = false ∨ f.noConfigDatabases = false ∨ (f.useAPI = true ∧ c = apiDBConfig))
    (hreq : Required f ((readOf S env f).cells.getD x.config {}).databases x.lockf.packages c) :
    ∃ d ∈ neededConfigs env f (readOf S env f), d.identifier = c.identifier ∧
      ∀ db, (env.load d f.offline f.batchSize (allPackageNames env (readOf S env f).files)).1 = some db →
        db ∈ forConfigs p.2.1 (p.1.cells.getD x.config {}).databases := by
  obtain ⟨h1, h2, h3⟩ := prep_read S env f p hp
  have hinv := readInv_readOf S env f p hp
  rw [required_mem env hiter] at hreq
  have hrange := hinv.range x hxm
  have hcell : ∃ e ∈ (p.1.cells.getD x.config {}).databases, e.identifier = c.identifier := by
    rw [h2]
    cases hn : f.noConfigDatabases with
    | false =>
      rw [hn] at hreq
      exact adjust_adds env f hn _ _ x hxm he hrange c (by simpa using hreq)
    | true =>
      rcases hc with hnc | h | ⟨hu, rfl⟩
      · rw [adjust_own env f _ _ (hinv.nodup (by simp [hnc, hl])) x hxm he hrange]
        exact firsts_mem _ _ hreq
      · rw [hn] at h; cases h
      · exact adjust_api env f hu _ _ _ (.inr ⟨hrange, x, hxm, he, rfl⟩)
  obtain ⟨e, hem, hee⟩ := hcell
  have hneed : ∃ d ∈ neededConfigs env f (readOf S env f), d.identifier = e.identifier := by
    unfold neededConfigs
    rw [uniqueDBConfigs_eq, ← h2]
    apply firsts_mem
    refine List.mem_flatten.2 ⟨_, List.mem_map.2 ⟨p.1.cells.getD x.config {}, ?_, rfl⟩, hem⟩
    exact List.mem_map.2 ⟨x, List.mem_filter.2 ⟨hxm, by simp [he]⟩, rfl⟩
  obtain ⟨d, hdm, hde⟩ := hneed
  refine ⟨d, hdm, hde.trans hee, ?_⟩
  intro db hload
  have hdb : db ∈ p.2.1 := by
    rw [h3 hl]
    exact List.mem_filterMap.2 ⟨d, hdm, hload⟩
  unfold forConfigs
  refine List.mem_flatMap.2 ⟨db, hdb, List.mem_filterMap.2 ⟨e, hem, ?_⟩⟩
  rw [if_pos]
  rw [hk _ _ _ _ _ hload, hde]

/-- What a database returns for a package is in the report, or something related is. -/
theorem covered (S : Sorter) (env : Env) (f : Flags) (hl : f.listPackages = false) (p : LoopState × List DB × List FileEntry)
    (hp : runPrep S env f = .inr p) (i : Nat) (x : FileEntry) (hx : (readOf S env f).files[i]? = some x) (he : x.err = false)
    (db : DB) (hmine : db ∈ forConfigs p.2.1 (p.1.cells.getD x.config {}).databases) (answer : List (List OSV))
    (hans : db.answer i x.lockf.packages = some answer) :
    ∃ rep, .report rep ∈ shown (run S env f).events ∧ rep.lockfile = x.lockf ∧ rep.packages.map (·.pkg) = x.lockf.packages ∧
      ∀ k vs v, answer[k]? = some vs → v ∈ vs → k < x.lockf.packages.length →
        ∃ q, rep.packages[k]? = some q ∧ ∃ o, Related o v ∧
          (o ∈ q.vulnerabilities ∨ (o ∈ q.ignored ∧ o.id ∈ ignoresFor f ((readOf S env f).cells.getD x.config {}))) := by
  obtain ⟨h1, h2, h3⟩ := prep_read S env f p hp
  have hign : ignoresFor f (p.1.cells.getD x.config {}) = ignoresFor f ((readOf S env f).cells.getD x.config {}) := by
    rw [h2, adjust_ignores]
  rw [← hign]
  have hrep := loopResults_mem f hl p.2.1 p.1.cells i 0 p.2.2 x (h1 ▸ hx) he
  rw [Nat.zero_add] at hrep
  refine ⟨reportOf f p.2.1 (p.1.cells.getD x.config {}) i x.lockf, ?_, rfl, ?_, ?_⟩
  · rw [run_shown, (runBody_go S env f p hp).1]; exact hrep
  · refine List.ext_getElem? fun k => ?_
    simp only [reportOf, List.getElem?_map, List.getElem?_mapIdx]
    cases x.lockf.packages[k]? with
    | none => rfl
    | some pkg => rw [Option.map_some, Option.map_some, transpose_eq]
  · intro k vs v hvs hv hkl
    have hq : (reportOf f p.2.1 (p.1.cells.getD x.config {}) i x.lockf).packages[k]? =
        some (transposePkgResults x.lockf.packages[k] (ignoresFor f (p.1.cells.getD x.config {})) k
          ((forConfigs p.2.1 (p.1.cells.getD x.config {}).databases).filterMap fun db => db.answer i x.lockf.packages)) := by
      simp only [reportOf, List.getElem?_mapIdx, List.getElem?_eq_getElem hkl, Option.map_some]
    refine ⟨_, hq, ?_⟩
    rw [transpose_eq]
    have hret : v ∈ returned k ((forConfigs p.2.1 (p.1.cells.getD x.config {}).databases).filterMap
        fun db => db.answer i x.lockf.packages) := by
      refine List.mem_flatMap.2 ⟨answer, List.mem_filterMap.2 ⟨db, hmine, hans⟩, ?_⟩
      rw [List.getD_eq_getElem?_getD, hvs]; exact hv
    obtain ⟨o, ho, hrel⟩ := (uniqueVulns_spec _).2.2 v hret
    refine ⟨o, hrel, ?_⟩
    dsimp only
    rw [List.mem_filter, List.mem_filter]
    cases hi : (ignoresFor f (p.1.cells.getD x.config {})).contains o.id with
    | false => exact .inl ⟨ho, rfl⟩
    | true => exact .inr ⟨⟨ho, rfl⟩, List.contains_iff_mem.1 hi⟩

/-- If the exit code is 0, each database that is used for a file has answered. -/
theorem answered (S : Sorter) (env : Env) (f : Flags) (hl : f.listPackages = false)
    (p : LoopState × List DB × List FileEntry) (hp : runPrep S env f = .inr p)
    (hz : ∀ m, .error m ∉ (run S env f).events) (i : Nat) (x : FileEntry) (hx : (readOf S env f).files[i]? = some x)
    (db : DB) (hdb : db ∈ forConfigs p.2.1 (p.1.cells.getD x.config {}).databases) :
    ∃ answer, db.answer i x.lockf.packages = some answer := by
  obtain ⟨-, -, -, hfin, -, hany⟩ := runBody_go S env f p hp
  obtain ⟨h1, -, -⟩ := prep_read S env f p hp
  have hno : (runBody S env f).r.sum.any = false := by
    cases h : (runBody S env f).r.sum.any with
    | false => rfl
    | true =>
      obtain ⟨m, hm⟩ := (sum_any_iff _).1 h
      exact absurd ((run_error_iff S env f m).2 hm) (hz m)
  have hloop : loopErr f p.2.1 p.1.cells 0 p.2.2 = false := by
    cases h : loopErr f p.2.1 p.1.cells 0 p.2.2 with
    | false => rfl
    | true =>
      rw [h, Bool.or_true] at hany
      have hs : (p.2.2.foldl (loopStep f p.2.1) p.1).r.sum.Soft (runBody S env f).r.sum := by
        rw [hfin]
        unfold finish
        dsimp only
        split
        · exact soft_writeUpdated env _ _
        · exact .refl _
      have := hs.2.2.2.2.2.2 hany
      rw [hno] at this
      cases this
  have key : ∀ (xs : List FileEntry) (s j : Nat) (y : FileEntry), loopErr f p.2.1 p.1.cells s xs = false → xs[j]? = some y →
      fileErr f p.2.1 p.1.cells (s + j) y = false := by
    intro xs
    induction xs with
    | nil => intro s j y _ h; simp at h
    | cons z zs ih =>
      intro s j y h hy
      obtain ⟨ha, hb⟩ := Bool.or_eq_false_iff.1 h
      cases j with
      | zero => simp at hy; subst hy; exact ha
      | succ j =>
        have := ih (s + 1) j y hb (by simpa using hy)
        rwa [show s + (j + 1) = s + 1 + j by omega]
  have hf := key _ 0 i x hloop (by rw [h1]; exact hx)
  rw [Nat.zero_add] at hf
  have := (Bool.or_eq_false_iff.1 hf).2
  rw [hl, Bool.not_false, Bool.true_and] at this
  have := List.any_eq_false.1 this db hdb
  cases ha : db.answer i x.lockf.packages with
  | none => rw [ha] at this; exact absurd rfl this
  | some a => exact ⟨a, rfl⟩

/-- The database of a config of type `api`. -/
theorem worldLoad_api (S : Sorter) (W : World) (c : DBConfig) (offline : Bool) (batchSize : Int) (names : List Str) (db : DB)
    (h : (worldLoad S W c offline batchSize names).1 = some db) (ht : c.type = g!"api") :
    1 ≤ batchSize ∧ db.check = W.api c batchSize := by
  unfold worldLoad at h
  split at h
  · rename_i ld hld
    obtain ⟨-, hb, hk⟩ := (C17_identity W.load c offline batchSize names ld hld).2.2.2.1 ht
    rw [hk] at h
    cases h
    exact ⟨hb, rfl⟩
  · cases h

/-- The names of all packages that were read are given to the databases. -/
theorem name_mem (env : Env) (hiter : ∀ l, (env.iter l).Perm l) (files : List FileEntry) (x : FileEntry) (hx : x ∈ files)
    (pkg : PackageDetails) (hp : pkg ∈ x.lockf.packages) : pkg.name ∈ allPackageNames env files := by
  unfold allPackageNames
  rw [(hiter _).mem_iff, mem_dedupStr]
  exact List.mem_flatMap.2 ⟨x, hx, List.mem_map.2 ⟨pkg, hp, rfl⟩⟩

end Osv.World
