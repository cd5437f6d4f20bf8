import Verif.Lemmas.Databases
import Verif.Spec.RunSamples
/-!
# C32 Every lockfile is checked with its own databases

False with both `--no-config` and `--no-config-databases`: all lockfiles then share one config, and preparing a
lockfile removes the databases of the previous ones.
-/
namespace Osv
open Spec

/-- Each required database that loads and answers is accounted for in the report of the lockfile. The database that is
loaded is that of the first config `d` with the same identifier. -/
def C32_checked (S : Sorter) (env : Env) (f : Flags) : Prop :=
  ∀ i x, (readOf S env f).files[i]? = some x → x.err = false →
    ∀ c, Required f ((readOf S env f).cells.getD x.config {}).databases x.lockf.packages c →
    ∃ d, d.identifier = c.identifier ∧
      ∀ db answer, (env.load d f.offline f.batchSize (allPackageNames env (readOf S env f).files)).1 = some db →
        db.answer i x.lockf.packages = some answer →
        ∃ rep, .report rep ∈ shown (run S env f).events ∧ rep.lockfile = x.lockf ∧ Covers rep answer

/-- The full property. -/
def C32_full : Prop := ∀ (S : Sorter) (env : Env) (f : Flags), KeepsIdentifier env → (∀ l, (env.iter l).Perm l) →
  f.listPackages = false → Started f (run S env f).events → C32_checked S env f

theorem required_mem (env : Env) (hiter : ∀ l, (env.iter l).Perm l) (f : Flags) (own : List DBConfig) (x : FileEntry)
    (c : DBConfig) : Required f own x.lockf.packages c ↔
      c ∈ (if f.noConfigDatabases then [] else own) ++ extraConfigs env f x := by
  unfold Required extraConfigs
  rw [List.mem_append, List.mem_append]
  refine or_congr ?_ (or_congr ?_ ?_)
  · cases f.noConfigDatabases <;> simp
  · cases f.useAPI <;> simp
  · cases f.useDatabases with
    | false => simp
    | true =>
      simp only [true_and, if_true, List.mem_map, mem_addEcosystems, List.not_mem_nil, false_or, mem_ecosystemsOf _ hiter]
      constructor
      · rintro ⟨p, hp, hne, rfl⟩; exact ⟨_, ⟨hne, p, hp, rfl⟩, rfl⟩
      · rintro ⟨e, ⟨hne, p, hp, rfl⟩, rfl⟩; exact ⟨p, hp, hne, rfl⟩

/-- The property holds unless both `--no-config` and `--no-config-databases` are given. -/
theorem C32_checked_partial (S : Sorter) (env : Env) (f : Flags) (hk : KeepsIdentifier env) (hiter : ∀ l, (env.iter l).Perm l)
    (hl : f.listPackages = false) (hs : Started f (run S env f).events)
    (hc : f.noConfig = false ∨ f.noConfigDatabases = false) : C32_checked S env f := by
  obtain ⟨p, hp⟩ := started_go S env f hs
  obtain ⟨h1, h2, h3⟩ := prep_read S env f p hp
  have hinv := readInv_readOf S env f p hp
  intro i x hx he c hreq
  rw [required_mem env hiter] at hreq
  have hxm := List.mem_of_getElem? hx
  have hrange := hinv.range x hxm
  have hcell : ∃ e ∈ (p.1.cells.getD x.config {}).databases, e.identifier = c.identifier := by
    rw [h2]
    cases hn : f.noConfigDatabases with
    | false =>
      rw [hn] at hreq
      exact adjust_adds env f hn _ _ x hxm he hrange c (by simpa using hreq)
    | true =>
      have hnc : f.noConfig = false := by
        rcases hc with h | h
        · exact h
        · rw [hn] at h; cases h
      rw [adjust_own env f _ _ (hinv.nodup (by simp [hnc, hl])) x hxm he hrange]
      exact firsts_mem _ _ hreq
  obtain ⟨e, hem, hee⟩ := hcell
  have hneed : ∃ d ∈ neededConfigs env f (readOf S env f), d.identifier = e.identifier := by
    unfold neededConfigs
    rw [uniqueDBConfigs_eq, ← h2]
    apply firsts_mem
    refine List.mem_flatten.2 ⟨_, List.mem_map.2 ⟨p.1.cells.getD x.config {}, ?_, rfl⟩, hem⟩
    exact List.mem_map.2 ⟨x, List.mem_filter.2 ⟨hxm, by simp [he]⟩, rfl⟩
  obtain ⟨d, hdm, hde⟩ := hneed
  refine ⟨d, hde.trans hee, ?_⟩
  intro db answer hload hans
  have hdb : db ∈ p.2.1 := by
    rw [h3 hl]
    exact List.mem_filterMap.2 ⟨d, hdm, hload⟩
  have hmine : db ∈ forConfigs p.2.1 (p.1.cells.getD x.config {}).databases := by
    unfold forConfigs
    refine List.mem_flatMap.2 ⟨db, hdb, List.mem_filterMap.2 ⟨e, hem, ?_⟩⟩
    rw [if_pos]
    rw [hk _ _ _ _ _ hload, hde]
  have hrep := loopResults_mem f hl p.2.1 p.1.cells i 0 p.2.2 x (h1 ▸ hx) he
  rw [Nat.zero_add] at hrep
  refine ⟨reportOf f p.2.1 (p.1.cells.getD x.config {}) i x.lockf, ?_, rfl, ?_⟩
  · rw [run_shown, (runBody_go S env f p hp).1]; exact hrep
  · intro k vs v hvs hv hkl
    have hkl' : k < x.lockf.packages.length := hkl
    refine ⟨transposePkgResults x.lockf.packages[k] (ignoresFor f (p.1.cells.getD x.config {})) k
      ((forConfigs p.2.1 (p.1.cells.getD x.config {}).databases).filterMap fun db => db.answer i x.lockf.packages),
      by simp only [reportOf, List.getElem?_mapIdx, List.getElem?_eq_getElem hkl', Option.map_some], ?_⟩
    rw [transpose_eq]
    have hret : v ∈ returned k ((forConfigs p.2.1 (p.1.cells.getD x.config {}).databases).filterMap
        fun db => db.answer i x.lockf.packages) := by
      refine List.mem_flatMap.2 ⟨answer, List.mem_filterMap.2 ⟨db, hmine, hans⟩, ?_⟩
      rw [List.getD_eq_getElem?_getD, hvs]; exact hv
    obtain ⟨o, ho, hrel⟩ := (uniqueVulns_spec _).2.2 v hret
    refine ⟨o, ?_, hrel⟩
    dsimp only
    rw [List.mem_append, List.mem_filter, List.mem_filter]
    cases hi : (ignoresFor f (p.1.cells.getD x.config {})).contains o.id with
    | false => exact .inl ⟨ho, rfl⟩
    | true => exact .inr ⟨ho, rfl⟩

/-- With configs enabled each lockfile has exactly its own databases: the required ones, without duplicates of an
identifier. -/
theorem C32_exact_partial (S : Sorter) (env : Env) (f : Flags) (hiter : ∀ l, (env.iter l).Perm l)
    (hl : f.listPackages = false) (hn : f.noConfig = false) (p : LoopState × List DB × List FileEntry)
    (hp : runPrep S env f = .inr p) (x : FileEntry) (hx : x ∈ p.2.2) (he : x.err = false) :
    ∃ req : List DBConfig, (p.1.cells.getD x.config {}).databases = firsts req ∧
      ∀ c, c ∈ req ↔ Required f ((readOf S env f).cells.getD x.config {}).databases x.lockf.packages c := by
  obtain ⟨h1, h2, h3⟩ := prep_read S env f p hp
  have hinv := readInv_readOf S env f p hp
  rw [h1] at hx
  refine ⟨_, ?_, fun c => (required_mem env hiter f _ x c).symm⟩
  rw [h2, adjust_own env f _ _ (hinv.nodup (by simp [hn, hl])) x hx he (hinv.range x hx)]

/-- The sample environment with databases that only know their own ecosystem. -/
def sampleEcoEnv : Env := { sampleEnv with
  load := fun c _ _ _ =>
    if c.identifier = (ecosystemDBConfig g!"Go").identifier then
      (some { name := c.name, identifier := c.identifier, info := .dir 1
              check := fun _ ps => (.ok (ps.map fun p => if p.ecosystem = g!"Go" then [sampleA] else []), false) }, false)
    else
      (some { name := c.name, identifier := c.identifier, info := .dir 1
              check := fun _ ps => (.ok (ps.map fun p => if p.ecosystem = g!"Go" then [] else [sampleC]), false) }, false) }

theorem sampleEco_keeps : KeepsIdentifier sampleEcoEnv := by
  intro c off n names db h
  unfold sampleEcoEnv at h
  dsimp only at h
  split at h <;> (cases h; rfl)

/-- `go.mod` and `yarn.lock` without configs and config databases: `go.mod` is not checked with the Go database. -/
def sampleNoConfig : Flags := { sampleFlags [g!"go.mod", g!"yarn.lock"] with noConfig := true, noConfigDatabases := true }

theorem C32_shared_config_counterexample : ¬ C32_full := by
  intro h
  have hst : Started sampleNoConfig (run Sorter.insertion sampleEcoEnv sampleNoConfig).events := by
    refine ⟨rfl, rfl, ?_⟩
    have : ∀ e ∈ (run Sorter.insertion sampleEcoEnv sampleNoConfig).events, e.isErr (fun _ => true) = false := by decide +kernel
    intro m hm
    exact absurd (this _ hm) (by simp [Event.isErr])
  have hf : (readOf Sorter.insertion sampleEcoEnv sampleNoConfig).files[0]? =
      some ⟨⟨g!"go.mod", g!"go.mod", [samplePkg g!"m" g!"Go"]⟩, 0, false⟩ := by decide +kernel
  obtain ⟨d, hd, hall⟩ := h Sorter.insertion sampleEcoEnv sampleNoConfig sampleEco_keeps (fun _ => .refl _) rfl hst 0 _ hf rfl
    (ecosystemDBConfig g!"Go") (.inr (.inr ⟨rfl, samplePkg g!"m" g!"Go", by simp, by decide, rfl⟩))
  -- whatever the database finds for `go.mod`, the report for `go.mod` is empty
  have hrep : ∀ r ∈ shown (run Sorter.insertion sampleEcoEnv sampleNoConfig).events,
      (lockfileOf r).filePath = g!"go.mod" → idsOf r = [] := by decide +kernel
  have hload : ∃ db a, (sampleEcoEnv.load d sampleNoConfig.offline sampleNoConfig.batchSize (allPackageNames sampleEcoEnv
      (readOf Sorter.insertion sampleEcoEnv sampleNoConfig).files)).1 = some db ∧
      db.answer 0 [samplePkg g!"m" g!"Go"] = some [a] ∧ a ≠ [] := by
    unfold sampleEcoEnv
    dsimp only
    rw [if_pos hd]
    exact ⟨_, [sampleA], rfl, rfl, by simp⟩
  obtain ⟨db, a, hl1, hl2, hne⟩ := hload
  obtain ⟨rep, hr1, hr2, hcov⟩ := hall db [a] hl1 hl2
  obtain ⟨v, hv⟩ := List.exists_mem_of_ne_nil a hne
  obtain ⟨pk, hpk, o, ho, _⟩ := hcov 0 a v rfl hv (by rw [hr2]; decide)
  have hid := hrep _ hr1 (by show rep.lockfile.filePath = _; rw [hr2])
  have : o.id ∈ idsOf (.report rep) :=
    List.mem_flatMap.2 ⟨pk, List.mem_of_getElem? hpk, List.mem_map_of_mem ho⟩
  rw [hid] at this
  cases this

/-- A passing run that hides the vulnerability: without `yarn.lock` it is found. -/
theorem C32_hidden_vulnerability :
    (run Sorter.insertion sampleEcoEnv { sampleNoConfig with args := [g!"go.mod"] }).exit = 1 ∧
    (run Sorter.insertion sampleEcoEnv { sampleNoConfig with globalIgnores := [g!"C"] }).exit = 0 := by
  decide +kernel

/-- The hypotheses hold for an ordinary run. -/
example : Started (sampleFlags [g!"go.mod", g!"yarn.lock"])
    (run Sorter.insertion sampleEcoEnv (sampleFlags [g!"go.mod", g!"yarn.lock"])).events := by
  refine ⟨rfl, rfl, ?_⟩
  have : ∀ e ∈ (run Sorter.insertion sampleEcoEnv (sampleFlags [g!"go.mod", g!"yarn.lock"])).events,
    e.isErr (fun _ => true) = false := by decide +kernel
  intro m hm
  exact absurd (this _ hm) (by simp [Event.isErr])

end Osv
