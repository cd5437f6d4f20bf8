import Verif.Model.Parsers
import Verif.Lemmas.DetailMap
/-! Every parser gives its packages the ecosystem of its format. -/
namespace Osv.Formats
open Osv Str

/-- The ecosystem of the package, also for comparing versions. -/
def InEco (e : Ecosystem) (p : PackageDetails) : Prop := p.ecosystem = e ∧ p.compareAs = e

/-- All packages of a list. -/
def ListEco (e : Ecosystem) (ps : List PackageDetails) : Prop := ∀ p ∈ ps, InEco e p

/-- All packages of a map. -/
def MapEco (e : Ecosystem) (m : SMap PackageDetails) : Prop := ∀ x ∈ m, InEco e x.2

theorem ListEco.nil (e : Ecosystem) : ListEco e [] := by intro p hp; cases hp

theorem MapEco.nil (e : Ecosystem) : MapEco e [] := by intro p hp; cases hp

theorem ListEco.snoc {e : Ecosystem} {ps : List PackageDetails} (h : ListEco e ps) {p : PackageDetails} (hp : InEco e p) :
    ListEco e (ps ++ [p]) := by
  intro q hq
  rcases List.mem_append.1 hq with hq | hq
  · exact h q hq
  · rw [List.mem_singleton.1 hq]; exact hp

theorem ListEco.append {e : Ecosystem} {ps qs : List PackageDetails} (h : ListEco e ps) (h' : ListEco e qs) :
    ListEco e (ps ++ qs) := by
  intro q hq
  rcases List.mem_append.1 hq with hq | hq
  · exact h q hq
  · exact h' q hq

theorem ListEco.cons {e : Ecosystem} {ps : List PackageDetails} {p : PackageDetails} (hp : InEco e p) (h : ListEco e ps) :
    ListEco e (p :: ps) := by
  intro q hq
  rcases List.mem_cons.1 hq with rfl | hq
  · exact hp
  · exact h q hq

theorem ListEco.map {e : Ecosystem} {α : Type} (f : α → PackageDetails) (h : ∀ a, InEco e (f a)) (l : List α) :
    ListEco e (l.map f) := by
  intro p hp
  obtain ⟨a, -, rfl⟩ := List.mem_map.1 hp
  exact h a

theorem ListEco.perm {e : Ecosystem} {ps qs : List PackageDetails} (h : ListEco e ps) (hp : qs.Perm ps) : ListEco e qs :=
  fun q hq => h q (hp.mem_iff.1 hq)

theorem MapEco.set {e : Ecosystem} {m : SMap PackageDetails} (h : MapEco e m) (k : Str) {p : PackageDetails} (hp : InEco e p) :
    MapEco e (m.set k p) := by
  intro x hx
  rcases SMap.mem_set m k p x hx with hx | hx
  · rw [hx]; exact hp
  · exact h x hx

theorem MapEco.values {e : Ecosystem} {m : SMap PackageDetails} (h : MapEco e m) : ListEco e (m.map (·.2)) := by
  intro p hp
  obtain ⟨x, hx, rfl⟩ := List.mem_map.1 hp
  exact h x hx

theorem MapEco.merge {e : Ecosystem} {m1 m2 : SMap PackageDetails} (h1 : MapEco e m1) (h2 : MapEco e m2) :
    MapEco e (mergeDetails m1 m2) := by
  unfold mergeDetails
  induction m2 generalizing m1 with
  | nil => exact h1
  | cons x m2 ih =>
    exact ih (h1.set x.1 (h2 x List.mem_cons_self)) (fun y hy => h2 y (List.mem_cons_of_mem _ hy))

theorem foldl_eco {e : Ecosystem} {α : Type} (f : List PackageDetails → α → List PackageDetails)
    (hf : ∀ acc a, ListEco e acc → ListEco e (f acc a)) (l : List α) (acc : List PackageDetails) (h : ListEco e acc) :
    ListEco e (l.foldl f acc) := by
  induction l generalizing acc with
  | nil => exact h
  | cons a l ih => exact ih _ (hf _ _ h)

theorem bun (l : SMap (List JVal)) (ps : List PackageDetails) (h : bunLoop l = some ps) : ListEco g!"npm" ps := by
  induction l generalizing ps with
  | nil => cases h; exact .nil _
  | cons x l ih =>
    unfold bunLoop at h
    obtain ⟨d, -, h⟩ := Option.bind_eq_some_iff.1 h
    split at h
    · exact ih _ h
    · obtain ⟨qs, hq, rfl⟩ := Option.map_eq_some_iff.1 h
      exact .cons ⟨rfl, rfl⟩ (ih _ hq)

theorem gemSpec (p : GemParser) (line : Str) (h : ListEco g!"RubyGems" p.dependencies) :
    ListEco g!"RubyGems" (p.parseSpec line).dependencies := by
  unfold GemParser.parseSpec
  split
  · exact h
  · split
    · exact h.snoc ⟨rfl, rfl⟩
    · exact h

theorem gemSource (p : GemParser) (line : Str) (h : ListEco g!"RubyGems" p.dependencies) :
    ListEco g!"RubyGems" (p.parseSource line).dependencies := by
  unfold GemParser.parseSource
  split
  · exact h
  · split
    · dsimp only
      split <;> exact h
    · exact gemSpec p line h

theorem gemStep (p : GemParser) (line : Str) (h : ListEco g!"RubyGems" p.dependencies) :
    ListEco g!"RubyGems" (Osv.gemStep p line).dependencies := by
  unfold Osv.gemStep
  split
  · exact gemSource _ _ h
  · iterate 4
      split
      · exact h
    dsimp only
    have h' : ListEco g!"RubyGems" (if isNotIndented line then { p with state := .none } else p).dependencies := by
      split <;> exact h
    generalize (if isNotIndented line then { p with state := .none } else p) = q at h' ⊢
    split
    · unfold GemParser.parseLineBasedOnState
      split
      · exact gemSource _ _ h'
      · exact h'
    · exact h'

theorem gem (ls : List Str) (p : GemParser) (h : ListEco g!"RubyGems" p.dependencies) :
    ListEco g!"RubyGems" (ls.foldl Osv.gemStep p).dependencies := by
  induction ls generalizing p with
  | nil => exact h
  | cons l ls ih => exact ih _ (gemStep p l h)

theorem goRequire (ms : List GoModule) (m : SMap PackageDetails) (h : MapEco g!"Go" m) : MapEco g!"Go" (goRequireLoop m ms) := by
  induction ms generalizing m with
  | nil => exact h
  | cons a ms ih => exact ih _ (h.set _ ⟨rfl, rfl⟩)

theorem goReplace (iter : SMap PackageDetails → SMap PackageDetails) (rs : List GoReplace) (m : SMap PackageDetails)
    (h : MapEco g!"Go" m) : MapEco g!"Go" (goReplaceLoop iter m rs) := by
  induction rs generalizing m with
  | nil => exact h
  | cons r rs ih =>
    apply ih
    generalize goReplacements iter m r = ks
    induction ks generalizing m with
    | nil => exact h
    | cons k ks ihk => exact ihk _ (h.set k ⟨rfl, rfl⟩)

theorem goDedup (l : SMap PackageDetails) (m : SMap PackageDetails) (hl : MapEco g!"Go" l) (h : MapEco g!"Go" m) :
    MapEco g!"Go" (l.foldl (fun m x => m.set (x.2.name ++ g!"@" ++ x.2.version) x.2) m) := by
  induction l generalizing m with
  | nil => exact h
  | cons x l ih => exact ih _ (fun y hy => hl y (List.mem_cons_of_mem _ hy)) (h.set _ (hl x List.mem_cons_self))

theorem npmDependency {name version : Str} {x : Str × PackageDetails} (h : Osv.npmDependency name version = some x) :
    InEco g!"npm" x.2 := by
  unfold Osv.npmDependency at h
  split at h
  · cases h; exact ⟨rfl, rfl⟩
  · obtain ⟨nv, -, rfl⟩ := Option.map_eq_some_iff.1 h
    dsimp only
    split <;> exact ⟨rfl, rfl⟩

mutual
theorem npmDepStep (details : SMap PackageDetails) (name : Str) (d : NpmDep) (m : SMap PackageDetails)
    (hd : MapEco g!"npm" details) (h : Osv.npmDepStep details name d = some m) : MapEco g!"npm" m := by
  cases d with
  | mk version deps =>
    unfold Osv.npmDepStep at h
    obtain ⟨inner, hi, h⟩ := Option.bind_eq_some_iff.1 h
    obtain ⟨x, hx, rfl⟩ := Option.map_eq_some_iff.1 h
    exact (hd.merge (npmDepsLoop [] deps inner (.nil _) hi)).set _ (npmDependency hx)
theorem npmDepsLoop (details : SMap PackageDetails) (ds : NpmDeps) (m : SMap PackageDetails)
    (hd : MapEco g!"npm" details) (h : Osv.npmDepsLoop details ds = some m) : MapEco g!"npm" m := by
  cases ds with
  | nil => unfold Osv.npmDepsLoop at h; cases h; exact hd
  | cons name dep rest =>
    unfold Osv.npmDepsLoop at h
    obtain ⟨m', h1, h⟩ := Option.bind_eq_some_iff.1 h
    exact npmDepsLoop m' rest m (npmDepStep details name dep m' hd h1) h
end

theorem npmPackages (l : SMap NpmPackage) (m : SMap PackageDetails) (h : MapEco g!"npm" m) :
    MapEco g!"npm" (npmPackagesLoop m l) := by
  induction l generalizing m with
  | nil => exact h
  | cons x l ih =>
    unfold npmPackagesLoop
    split
    · exact ih _ h
    · exact ih _ (h.set _ ⟨rfl, rfl⟩)

theorem npm (l : NpmLockfile) (m : SMap PackageDetails) (h : parseNpmLockfile l = some m) : MapEco g!"npm" m := by
  unfold parseNpmLockfile at h
  split at h
  · cases h; exact npmPackages _ _ (.nil _)
  · exact npmDepsLoop _ _ _ (.nil _) h

theorem nugetDeps (l : SMap Str) (m : SMap PackageDetails) (h : MapEco g!"NuGet" m) : MapEco g!"NuGet" (nugetDepsLoop m l) := by
  induction l generalizing m with
  | nil => exact h
  | cons x l ih => exact ih _ (h.set _ ⟨rfl, rfl⟩)

theorem nuget (iter : SMap Str → SMap Str) (l : SMap (Option (SMap Str))) (m : SMap PackageDetails) (h : MapEco g!"NuGet" m) :
    MapEco g!"NuGet" (nugetLoop iter m l) := by
  induction l generalizing m with
  | nil => exact h
  | cons x l ih => exact ih _ (h.merge (nugetDeps _ _ (.nil _)))

theorem pnpm (nine : Bool) (l : SMap PnpmLockPackage) (ps : List PackageDetails) (h : pnpmLoop nine l = some (some ps)) :
    ListEco g!"npm" ps := by
  induction l generalizing ps with
  | nil => unfold pnpmLoop at h; cases h; exact .nil _
  | cons x l ih =>
    unfold pnpmLoop at h
    split at h
    · cases h
    · cases h
    · rename_i nv _
      dsimp only at h
      generalize (if x.2.name ≠ [] then x.2.name else nv.1) = name at h
      generalize (if x.2.version ≠ [] then x.2.version else nv.2) = version at h
      split at h
      · exact ih _ h
      · obtain ⟨r, hr, h⟩ := Option.map_eq_some_iff.1 h
        obtain ⟨ds, rfl, rfl⟩ := Option.map_eq_some_iff.1 h
        exact .cons ⟨rfl, rfl⟩ (ih _ hr)

theorem pipenv (l : SMap Str) (m m' : SMap PackageDetails) (hm : MapEco g!"PyPI" m) (h : pipenvLoop m l = some m') :
    MapEco g!"PyPI" m' := by
  induction l generalizing m with
  | nil => unfold pipenvLoop at h; cases h; exact hm
  | cons x l ih =>
    unfold pipenvLoop at h
    split at h
    · exact ih _ hm h
    · obtain ⟨v, -, h⟩ := Option.bind_eq_some_iff.1 h
      exact ih _ (hm.set _ ⟨rfl, rfl⟩) h

theorem maven (props : SMap Str) (l : List MavenLockDependency) (m : SMap PackageDetails) (h : MapEco g!"Maven" m) :
    MapEco g!"Maven" (mavenLoop props m l) := by
  induction l generalizing m with
  | nil => exact h
  | cons x l ih => exact ih _ (h.set _ ⟨rfl, rfl⟩)

theorem renv (l : SMap RenvPackage) : ListEco g!"CRAN" (renvLoop l) := by
  induction l with
  | nil => exact .nil _
  | cons x l ih =>
    unfold renvLoop
    split
    · exact ih
    · exact .cons ⟨rfl, rfl⟩ ih

theorem addDetails (ds : List PackageDetails) (m : SMap PackageDetails) (hm : MapEco g!"PyPI" m) (h : ListEco g!"PyPI" ds) :
    MapEco g!"PyPI" (ds.foldl addDetail m) := by
  induction ds generalizing m with
  | nil => exact hm
  | cons d ds ih => exact ih _ (hm.set _ (h d List.mem_cons_self)) (fun y hy => h y (List.mem_cons_of_mem _ hy))

theorem reqLoop (incl : Str → List Str → Option ReqResult)
    (hi : ∀ p r ps r', incl p r = some (some ps, r') → ListEco g!"PyPI" ps) (path : Str) (lines : List Str)
    (packages : SMap PackageDetails) (required : List Str) (m : SMap PackageDetails) (req' : List Str)
    (hp : MapEco g!"PyPI" packages) (h : Osv.reqLoop incl path lines packages required = some (some m, req')) :
    MapEco g!"PyPI" m := by
  induction lines generalizing packages required with
  | nil => unfold Osv.reqLoop at h; cases h; exact hp
  | cons raw rest ih =>
    unfold Osv.reqLoop at h
    dsimp only at h
    split at h
    · split at h
      · exact ih _ _ hp h
      · split at h
        · cases h
        · cases h
        · rename_i hinc
          exact ih _ _ (addDetails _ _ hp (hi _ _ _ _ hinc)) h
    · split at h
      · exact ih _ _ hp h
      · exact ih _ _ (hp.set _ ⟨rfl, rfl⟩) h

theorem req (fs : Str → Option Str) (order : Str → List Str → List PackageDetails → List PackageDetails)
    (ho : ∀ p r l, (order p r l).Perm l) (depth : Nat) (path : Str) (required : List Str) (ps : List PackageDetails)
    (r' : List Str) (h : parseRequirementsAt fs order depth path required = some (some ps, r')) : ListEco g!"PyPI" ps := by
  induction depth generalizing path required ps r' with
  | zero => unfold parseRequirementsAt at h; cases h
  | succ depth ih =>
    unfold parseRequirementsAt at h
    split at h
    · cases h
    · dsimp only at h
      split at h
      · cases h
      · cases h
      · rename_i hl
        split at h
        · cases h
        · cases h
          exact (reqLoop _ (fun _ _ _ _ h => ih _ _ _ _ h) _ _ _ _ _ _ (.nil _) hl).values.perm (ho _ _ _)

end Osv.Formats
