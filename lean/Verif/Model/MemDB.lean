import Verif.Model.Osv
/-!
# In-memory database (`pkg/database/mem-check.go`)

The Go map `vulnerabilities` is an association list with the keys in an arbitrary order; lookups and
updates use the (unique) binding of a key.  This file is the version without the in-place sorting of
events; `Verif.Model.MemHeap` adds it.
-/
namespace Osv
open Str

/-- A Go map with string keys: bindings in iteration order. -/
abbrev SMap (α : Type) := List (Str × α)

/-- `m[k]`. -/
def SMap.get? {α : Type} (m : SMap α) (k : Str) : Option α := m.lookup k

/-- `m[k] = v`. -/
def SMap.set {α : Type} (m : SMap α) (k : Str) (v : α) : SMap α :=
  match m with
  | [] => [(k, v)]
  | (k', v') :: rest => if k' = k then (k', v) :: rest else (k', v') :: SMap.set rest k v

/-- `pkg/database/mem-check.go:9-12` `memDB`. -/
structure MemDB where
  vulnerabilities : SMap (List OSV) := []
  count : Nat := 0
deriving DecidableEq, Repr

/-- `pkg/database/zip.go:130-138` `mightAffectPackages`. -/
def mightAffectPackages (v : OSV) (names : List Str) : Bool :=
  v.affected.any fun a => names.contains a.package.normalizedName

/-- `pkg/database/mem-check.go:24`: index key of an affected entry. -/
def Affected.key (a : Affected) : Str :=
  a.package.normalizedEcosystem ++ g!"-" ++ a.package.normalizedName

/-- `pkg/database/mem-check.go:23-32`: loop body of `addVulnerability`. -/
def addUnder (m : SMap (List OSV)) (k : Str) (o : OSV) : SMap (List OSV) :=
  m.set k ((m.get? k).getD [] ++ [o])

/-- `pkg/database/mem-check.go:14-33` `addVulnerability`. -/
def MemDB.addVulnerability (db : MemDB) (o : OSV) (names : List Str) : MemDB :=
  let db := { db with count := db.count + 1 }
  if decide (names.length ≠ 0) && !mightAffectPackages o names then db
  else { db with
    vulnerabilities := o.affected.foldl (fun m a => addUnder m a.key o) db.vulnerabilities }

/-- The loads done by `ZipDB.load` / `DirDB.load`: a fresh map, then `addVulnerability` per advisory. -/
def MemDB.loadAll (os : List OSV) (names : List Str) : MemDB :=
  os.foldl (fun db o => db.addVulnerability o names) {}

/-- `pkg/database/mem-check.go:39-49`: the loops of `Vulnerabilities` over the map in iteration order. -/
def listVulns (includeWithdrawn : Bool) (vs : List OSV) : List OSV :=
  (vs.foldl (fun (acc : List OSV × List Str) v =>
    if acc.2.contains v.id then acc
    else if v.withdrawn.isNone || includeWithdrawn then (acc.1 ++ [v], v.id :: acc.2)
    else acc) ([], [])).1

/-- `pkg/database/mem-check.go:35-53` `Vulnerabilities`. -/
def MemDB.list (db : MemDB) (includeWithdrawn : Bool) : List OSV :=
  listVulns includeWithdrawn (db.vulnerabilities.flatMap (·.2))

/-- `pkg/database/mem-check.go:58`: lookup key of a package. -/
def PackageDetails.key (p : PackageDetails) : Str := p.ecosystem ++ g!"-" ++ p.name

/-- `pkg/database/mem-check.go:61-65`: loop over the advisories found under the key. -/
def collectAffecting (S : Sorter) (sem : Sem) (pkg : PackageDetails) (vs : List OSV) : List OSV :=
  vs.foldl (fun acc v =>
    if v.withdrawn.isNone && v.isAffected S sem pkg && !includesVuln acc v then acc ++ [v] else acc) []

/-- `pkg/database/mem-check.go:55-69` `VulnerabilitiesAffectingPackage`. -/
def MemDB.vulnerabilitiesAffectingPackage (S : Sorter) (sem : Sem) (db : MemDB) (pkg : PackageDetails) :
    List OSV :=
  match db.vulnerabilities.get? pkg.key with
  | none => []
  | some vs => collectAffecting S sem pkg vs

/-- `pkg/database/mem-check.go:71-79` `Check` (never returns an error). -/
def MemDB.check (S : Sorter) (sem : Sem) (db : MemDB) (pkgs : List PackageDetails) : List (List OSV) :=
  pkgs.map (db.vulnerabilitiesAffectingPackage S sem)

end Osv
