import Verif.Model.WorldApi
import Verif.Model.WorldCache
import Verif.Model.WorldCrash
import Verif.Props.C14
import Verif.Props.C40
import Verif.Props.C56
import Verif.Props.C62
import Verif.Props.C63
import Verif.Props.C66
import Verif.Props.C83
/-!
# C83 in the world

With the models of parsers, databases, cache and API, only three things crash the command: a parser (`C56` says on which texts), a 304
response to an unconditional request (`C63`), and versions that cannot be compared (`C62`).
-/
namespace Osv
open Spec World

namespace Crash

theorem loadDB_panic_iff (L : LoadEnv) (c : DBConfig) (offline : Bool) (batchSize : Int) (names : List Str) :
    loadDB L c offline batchSize names = .panic ↔ c.type = g!"zip" ∧ L.fetch c.url c.workingDirectory offline = .panic := by
  unfold loadDB
  by_cases h1 : c.type = g!"zip"
  · rw [if_pos h1]
    unfold newZippedDB
    cases L.fetch c.url c.workingDirectory offline with
    | panic => simp [h1]
    | error e => simp
    | ok body t =>
      dsimp only
      split <;> simp
  · rw [if_neg h1]
    simp only [h1, false_and, iff_false]
    split
    · unfold newAPIDB
      repeat' split
      all_goals simp
    · split
      · unfold newDirDB
        dsimp only
        repeat' split
        all_goals first
          | simp
          | (intro h; split at h <;> cases h)
      · simp

theorem worldLoad_panics (S : Sorter) (W : World) (c : DBConfig) (offline : Bool) (batchSize : Int) (names : List Str) (db : DB)
    (h : (worldLoad S W c offline batchSize names).1 = some db) (n : Nat) (pkgs : List PackageDetails) :
    db.panics n pkgs = (decide (c.type ≠ g!"api") && W.panics c offline names n pkgs) := by
  unfold worldLoad at h
  split at h
  · rename_i ld hld
    have hty : c.type = g!"api" → ld.kind = .api batchSize :=
      fun ht => ((C17_identity W.load c offline batchSize names ld hld).2.2.2.1 ht).2.2
    rcases loadDB_advisories W.load c offline batchSize names ld hld with ⟨u, hk⟩ | hk | ⟨ha, hk⟩
    · have hne : c.type ≠ g!"api" := fun ht => by have := hty ht; rw [hk] at this; cases this
      rw [hk] at h; cases h; simp [hne]
    · have hne : c.type ≠ g!"api" := fun ht => by have := hty ht; rw [hk] at this; cases this
      rw [hk] at h; cases h; simp [hne]
    · rw [hk] at h; cases h; simp [ha]
  · cases h

/-- Answers of databases always have one result for each package. -/
theorem answer_length (S : Sorter) (W : World) (A : DBConfig → Nat → ApiEnv) (hA : W.FollowsAPI S A) (c : DBConfig) (offline : Bool)
    (batchSize : Int) (names : List Str) (db : DB) (h : (worldLoad S W c offline batchSize names).1 = some db) (n : Nat)
    (pkgs : List PackageDetails) (answer : List (List OSV)) (ha : (db.check n pkgs).1 = .ok answer) : answer.length = pkgs.length := by
  by_cases ht : c.type = g!"api"
  · obtain ⟨hb, hc⟩ := worldLoad_api S W c offline batchSize names db h ht
    rw [hc] at ha
    obtain ⟨res, hres, he⟩ := hA c batchSize n pkgs hb
    rw [ha] at he
    cases res with
    | error e => cases he
    | ok out =>
      injection he with he
      rw [he]
      exact (C14_aligned S _ _ pkgs out hres).1
  · have := worldLoad_local S W c offline batchSize names db h ht n pkgs
    unfold DB.answer at this
    rw [ha] at this
    cases this
    unfold HeapDB.answer
    dsimp only
    rw [List.length_map, C11_length]

theorem parsed_inWorld (env : Env) (S : Sorter) (W : World) (f : Flags) (want q : Str) :
    IsParsed (env.inWorld S W) f want q ↔ IsParsed env f want q := by
  have : Discovers (env.inWorld S W) f.parseAs f.args want q ↔ Discovers env f.parseAs f.args want q := by
    constructor <;> intro hd
    all_goals cases hd with
      | file arg parser path a b c => exact .file arg parser path a b c
      | entry arg parser path name entries a b c d e => exact .entry arg parser path name entries a b c d e
  unfold IsParsed
  rw [this]
  exact Iff.rfl

/-- Nothing panics in a check where all versions are valid, whatever was checked before. -/
theorem checkP_valid (S : Sorter) (T : PanicSorter S) (parses : Ecosystem → Str → Bool) (sem : Sem) (os : List OSV) (names : List Str)
    (history ps : List PackageDetails) (h : ∀ p ∈ ps, ∀ o ∈ os, Comparable parses p o) :
    (((HeapDB.load os names).check S sem history).2.checkP T parses sem ps).isNone = false := by
  have hsim := (check_sim (permSim S sem (fun _ => True)) (fun _ _ _ _ _ _ => trivial) (HeapDB.load os names)
    (heapSim_refl (fun r => ⟨rfl, .refl _⟩) _) history (fun _ _ => trivial)).1
  rw [Cmp.check_ok T parses sem ps _ hsim]
  · rfl
  · intro p hp i
    show Cmp.OsvOk parses p (os.getD i default)
    rw [List.getD_eq_getElem?_getD]
    cases hx : os[i]? with
    | none => intro a ha; simp [default] at ha
    | some o =>
      intro a ha hf r hr hv he
      exact h p hp o (List.mem_of_getElem? hx) a ha ((Cmp.for_iff p a).mp hf) r hr ((Cmp.hasVersions_iff r).mp hv) he

end Crash
open Crash

/-- The only causes of a crash. Merging the answers is none: all databases give one result for each package. -/
theorem C83_world_iff (S : Sorter) (T : PanicSorter S) (parses : Ecosystem → Str → Bool) (env : Env) (W : World)
    (A : DBConfig → Nat → ApiEnv) (C : ArchiveLoads) (f : Flags) (hT : W.FollowsComparison T parses) (hA : W.FollowsAPI S A)
    (hC : W.FollowsCache C f.offline) :
    (runP S (env.inWorld S W) f).crashed = true ↔ Started f (run S (env.inWorld S W) f).events ∧
      ((∃ want q, IsParsed env f want q ∧ parseFile W.parsers (parserOf want q) q = none) ∨
      (f.listPackages = false ∧ ∃ c ∈ neededConfigs (env.inWorld S W) f (readOf S (env.inWorld S W) f), c.type = g!"zip" ∧
        (C.trace c.url c.workingDirectory).sent = some none ∧ ∃ e d b, (C.now c.url c.workingDirectory).reply = .resp 304 e d b) ∨
      (f.listPackages = false ∧ ∃ (i : Nat) (x : FileEntry) (c : DBConfig) (db : DB), (readOf S (env.inWorld S W) f).files[i]? = some x ∧
        x.err = false ∧ UsedFor S (env.inWorld S W) f x c db ∧ c.type ≠ g!"api" ∧
        ((HeapDB.load (advisoriesOf W.load c f.offline) (allPackageNames (env.inWorld S W) (readOf S (env.inWorld S W) f).files)).check S
          W.sem (W.history c i)).2.checkP T parses W.sem x.lockf.packages = none)) := by
  rw [C83_crash_iff]
  refine and_congr Iff.rfl ?_
  have hload : ∀ c names, (env.inWorld S W).loadPanics c f.offline f.batchSize names = true ↔ c.type = g!"zip" ∧
      (C.trace c.url c.workingDirectory).sent = some none ∧ ∃ e d b, (C.now c.url c.workingDirectory).reply = .resp 304 e d b := by
    intro c names
    rw [show (env.inWorld S W).loadPanics c f.offline f.batchSize names =
      decide (loadDB W.load c f.offline f.batchSize names = .panic) from rfl, decide_eq_true_iff, loadDB_panic_iff,
      (hC c.url c.workingDirectory).2.2]
    exact and_congr Iff.rfl (C18_panic_iff _ _ _)
  constructor
  · intro h
    cases h with
    | parser want q parsed panics => exact .inl ⟨want, q, (parsed_inWorld env S W f want q).1 parsed, by
        rw [show (env.inWorld S W).parsePanics (parserOf want q) q = (parseFile W.parsers (parserOf want q) q).isNone from rfl] at panics
        simpa using panics⟩
    | load c list needed panics => exact .inr (.inl ⟨list, c, needed, (hload c _).1 panics⟩)
    | check i x c db list file ok used panics =>
      rw [worldLoad_panics S W c f.offline f.batchSize _ db used.2.1, hT, Bool.and_eq_true, decide_eq_true_iff] at panics
      exact .inr (.inr ⟨list, i, x, c, db, file, ok, used, panics.1, by simpa using panics.2⟩)
    | merge i x c db list file ok used answer answers short =>
      have := answer_length S W A hA c f.offline f.batchSize _ db used.2.1 i _ answer answers
      omega
  · rintro (⟨want, q, parsed, panics⟩ | ⟨list, c, needed, h⟩ | ⟨list, i, x, c, db, file, ok, used, ht, panics⟩)
    · exact .parser want q ((parsed_inWorld env S W f want q).2 parsed) (by
        rw [show (env.inWorld S W).parsePanics (parserOf want q) q = (parseFile W.parsers (parserOf want q) q).isNone from rfl, panics]
        rfl)
    · exact .load c list needed ((hload c _).2 h)
    · refine .check i x c db list file ok used ?_
      rw [worldLoad_panics S W c f.offline f.batchSize _ db used.2.1, hT, panics]
      simp [ht]

/-- The formats whose parsers can panic; on which texts, says C56. Those of all other formats never do. -/
theorem C83_parsers (P : ParserEnv) (dom : List Str) (hdom : ∀ p, P.file p ≠ none → p ∈ dom) (hn : dom.length + 2 ≤ P.reqDepth)
    (parser path : Str) (h : parseFile P parser path = none) :
    parser ∈ [g!"bun.lock", g!"composer.lock", g!"package-lock.json", g!"packages.lock.json", g!"pnpm-lock.yaml", g!"Pipfile.lock",
      g!"renv.lock"] := by
  refine Classical.byContradiction fun hno => ?_
  simp only [List.mem_cons, List.not_mem_nil, or_false, not_or] at hno
  obtain ⟨n1, n2, n3, n4, n5, n6, n7⟩ := hno
  rw [parseFile] at h
  simp only [if_neg n1, if_neg n2, if_neg n3, if_neg n4, if_neg n5, if_neg n6, if_neg n7] at h
  by_cases hp : parser = g!"pubspec.lock"
  · subst hp
    exact C56_pubspec _ _ _ h
  by_cases hr : parser = g!"requirements.txt"
  · subst hr
    obtain ⟨res, hres⟩ := C40_terminates P.file dom hdom P.reqOrder path
    have : (parseRequirementsTxt P.file P.reqOrder P.reqDepth path).map reqParsed = none := h
    rw [hres _ hn] at this
    cases this
  simp only [if_neg hp, if_neg hr] at h
  have key : ∀ (p : Prop) [Decidable p] (a : Parsed) (o : Option Parsed), o ≠ none → (if p then some a else o) ≠ none := by
    intro p _ a o ho
    split
    · simp
    · exact ho
  revert h
  repeat' apply key
  simp

/-- When the command is safe: no parser panics, no server answers 304 without being asked to, and all versions that may be compared are
valid. Then it ends as `run` says. -/
theorem C83_world_safe (S : Sorter) (T : PanicSorter S) (parses : Ecosystem → Str → Bool) (env : Env) (W : World)
    (A : DBConfig → Nat → ApiEnv) (C : ArchiveLoads) (f : Flags) (hT : W.FollowsComparison T parses) (hA : W.FollowsAPI S A)
    (hC : W.FollowsCache C f.offline)
    (hparse : ∀ want q, IsParsed env f want q → parseFile W.parsers (parserOf want q) q ≠ none)
    (hserver : ∀ url wd, (C.trace url wd).sent = some none → ∀ e d b, (C.now url wd).reply ≠ .resp 304 e d b)
    (hcmp : ∀ x ∈ (readOf S (env.inWorld S W) f).files, ∀ pkg ∈ x.lockf.packages,
      ∀ c ∈ neededConfigs (env.inWorld S W) f (readOf S (env.inWorld S W) f), ∀ o ∈ advisoriesOf W.load c f.offline, Comparable parses pkg o) :
    (runP S (env.inWorld S W) f).crashed = false ∧ (runP S (env.inWorld S W) f).result = run S (env.inWorld S W) f := by
  have hnot : ¬ (runP S (env.inWorld S W) f).crashed = true := by
    rw [C83_world_iff S T parses env W A C f hT hA hC]
    rintro ⟨-, ⟨want, q, parsed, panics⟩ | ⟨-, c, -, -, hs, e, d, b, hr⟩ | ⟨-, i, x, c, db, file, ok, used, ht, panics⟩⟩
    · exact hparse want q parsed panics
    · exact hserver _ _ hs e d b hr
    · have := checkP_valid S T parses W.sem (advisoriesOf W.load c f.offline)
        (allPackageNames (env.inWorld S W) (readOf S (env.inWorld S W) f).files) (W.history c i) x.lockf.packages
        (fun p hp o ho => hcmp x (List.mem_of_getElem? file) p hp c used.1 o ho)
      rw [panics] at this
      cases this
  have hfalse : (runP S (env.inWorld S W) f).crashed = false := by simpa using hnot
  exact ⟨hfalse, C83_refines S _ f hfalse⟩

/-- `C66_default_partial` for the process: if it ends with code 0 then no package of a discovered lockfile is affected by an advisory
of the database of its ecosystem, unless it is ignored. No assumption rules out panics. -/
theorem C83_clean_exit_partial (S : Sorter) (env : Env) (W : World) (f : Flags) (hiter : ∀ l, (env.iter l).Perm l)
    (hgo : ∀ m, (W.parsers.iterGo m).Perm m) (ho : ∀ l, (W.parsers.order l).Perm l) (hr : ∀ p r l, (W.parsers.reqOrder p r l).Perm l)
    (hv : f.printVersion = false) (hle : f.listEcosystems = false) (hl : f.listPackages = false)
    (hud : f.useDatabases = true) (hc : f.noConfig = false ∨ f.noConfigDatabases = false) (hg : f.parseAs ≠ csvRowName)
    (h0 : (runP S (env.inWorld S W) f).result.exit = 0) (want q : Str) (hd : Discovers env f.parseAs f.args want q)
    (n1 : want ≠ csvRowName) (n2 : want ≠ csvFileName) :
    ∃ ps, parseFile W.parsers (parserOf want q) q = some (ps, false) ∧
      ∀ pkg ∈ ps, CmpLaws (W.sem pkg.compareAs) →
        (∀ o, Published W.load (ecosystemDBConfig pkg.ecosystem) f.offline o → WellFormedOSV (W.sem pkg.compareAs) o) →
        ∀ o, Published W.load (ecosystemDBConfig pkg.ecosystem) f.offline o → o.withdrawn = none →
        Affects (W.sem pkg.compareAs) o pkg → ∃ o', Linked o' o ∧ Excused env f q o'.id := by
  obtain ⟨ps, h1, h2⟩ := C66_default_partial S env W f hiter hgo ho hr hv hle hl hud hc hg (C83_exit_zero S _ f h0).2.2 want q hd n1 n2
  exact ⟨ps, h1, fun pkg hpkg => (h2 pkg hpkg).2.2.2⟩

/-! ### Samples -/

/-- A `composer.lock` that holds only `null` crashes the command, although another lockfile could be checked. -/
def C83_null : World := { sampleReqWorld with
  parsers := { sampleParsers with file := fun p => if p = g!"composer.lock" then some g!"null" else sampleParsers.file p } }

def C83_nullEnv : Env := { sampleEnv with path := fun p => if p = g!"requirements.txt" ∨ p = g!"composer.lock" then .file else .cannotOpen }

example : (runP Sorter.insertion (C83_nullEnv.inWorld Sorter.insertion C83_null) (sampleFlags [g!"requirements.txt"])).result.exit = 1 ∧
    (runP Sorter.insertion (C83_nullEnv.inWorld Sorter.insertion C83_null)
      (sampleFlags [g!"requirements.txt", g!"composer.lock"])).result.exit = 2 := by
  decide +kernel

end Osv
