import Verif.Model.MemDB
/-!
# In-memory database with shared, mutable events

`containsVersion` sorts `ar.Events` in place.  All copies of an advisory in the index (one per affected
entry) and in the results share the same event arrays, so a check changes the database.  Here an advisory
is identified by its load position; `heap i` is the current content of the advisory loaded at position `i`.
-/
namespace Osv

/-- `pkg/database/osv.go:87-133` `containsVersion`: answer and the range with its events sorted in place
(only when the sort is reached). -/
def AffectsRange.containsVersionM (S : Sorter) (sem : Sem) (r : AffectsRange) (pkg : PackageDetails) :
    Bool × AffectsRange :=
  if !r.versioned then (false, r)
  else if r.events.length = 0 then (false, r)
  else
    let es := S.sort (eventLess (sem pkg.compareAs)) r.events
    (eventsContain (sem pkg.compareAs) pkg.version es, { r with events := es })

/-- `pkg/database/osv.go:139-150` `affectsVersion` with its effect on the events. -/
def affectsVersionM (S : Sorter) (sem : Sem) (pkg : PackageDetails) :
    List AffectsRange → Bool × List AffectsRange
  | [] => (false, [])
  | r :: rs =>
    if !r.versioned then (false, r :: rs)
    else
      let c := r.containsVersionM S sem pkg
      if c.1 then (true, c.2 :: rs)
      else
        let t := affectsVersionM S sem pkg rs
        (t.1, c.2 :: t.2)

/-- `pkg/database/osv.go:285-310`: one entry of `IsAffected`, in evaluation order, with its effect. -/
def Affected.matchesPkgM (S : Sorter) (sem : Sem) (a : Affected) (pkg : PackageDetails) : Bool × Affected :=
  if areEcosystemsEqual a.package.ecosystem pkg.ecosystem && decide (a.package.normalizedName = pkg.name) then
    if a.ranges.length = 0 ∧ a.versions.length = 0 then (false, a)
    else if a.versions.contains pkg.version then (true, a)
    else
      let t := affectsVersionM S sem pkg a.ranges
      (t.1 || decide (pkg.version = []), { a with ranges := t.2 })
  else (false, a)

/-- `pkg/database/osv.go:284-313` `IsAffected`: the loop over the entries, stopping at the first match. -/
def matchEntriesM (S : Sorter) (sem : Sem) (pkg : PackageDetails) : List Affected → Bool × List Affected
  | [] => (false, [])
  | a :: as =>
    let c := a.matchesPkgM S sem pkg
    if c.1 then (true, c.2 :: as)
    else
      let t := matchEntriesM S sem pkg as
      (t.1, c.2 :: t.2)

/-- The database: current advisory contents by load position, and the index from keys to load positions. -/
structure HeapDB where
  heap : Nat → OSV
  index : SMap (List Nat)

/-- `pkg/database/mem-check.go:14-33` `addVulnerability` for the advisory loaded at position `i`. -/
def addIndex (m : SMap (List Nat)) (names : List Str) (o : OSV) (i : Nat) : SMap (List Nat) :=
  if decide (names.length ≠ 0) && !mightAffectPackages o names then m
  else o.affected.foldl (fun m a => m.set a.key ((m.get? a.key).getD [] ++ [i])) m

/-- Loading a sequence of advisories. -/
def HeapDB.load (os : List OSV) (names : List Str) : HeapDB where
  heap := fun i => os.getD i default
  index := os.zipIdx.foldl (fun m oi => addIndex m names oi.1 oi.2) []

/-- Loop body of `pkg/database/mem-check.go:61-65`, on load positions. State: heap and result so far. -/
def collectStepM (S : Sorter) (sem : Sem) (pkg : PackageDetails) (st : (Nat → OSV) × List Nat) (i : Nat) :
    (Nat → OSV) × List Nat :=
  let v := st.1 i
  if v.withdrawn.isNone then
    let t := matchEntriesM S sem pkg v.affected
    let heap' := fun j => if j = i then { v with affected := t.2 } else st.1 j
    if t.1 && !includesVuln (st.2.map st.1) v then (heap', st.2 ++ [i]) else (heap', st.2)
  else st

/-- `pkg/database/mem-check.go:55-69` `VulnerabilitiesAffectingPackage`: load positions of the reported
advisories, and the database afterwards. -/
def HeapDB.affecting (S : Sorter) (sem : Sem) (db : HeapDB) (pkg : PackageDetails) : List Nat × HeapDB :=
  match db.index.get? pkg.key with
  | none => ([], db)
  | some is =>
    let st := is.foldl (collectStepM S sem pkg) (db.heap, [])
    (st.2, { db with heap := st.1 })

/-- `pkg/database/mem-check.go:71-79` `Check`. -/
def HeapDB.check (S : Sorter) (sem : Sem) (db : HeapDB) : List PackageDetails → List (List Nat) × HeapDB
  | [] => ([], db)
  | p :: ps =>
    let a := db.affecting S sem p
    let t := HeapDB.check S sem a.2 ps
    (a.1 :: t.1, t.2)

/-! ### Messages on stderr -/

/-- `pkg/database/osv.go:286-288`: the condition of the message in `IsAffected`. -/
def Affected.unbounded (a : Affected) (pkg : PackageDetails) : Bool :=
  areEcosystemsEqual a.package.ecosystem pkg.ecosystem && decide (a.package.normalizedName = pkg.name) &&
  decide (a.ranges.length = 0) && decide (a.versions.length = 0)

/-- `pkg/database/osv.go:285-310` `IsAffected`: the messages about the advisory `id`, up to the first entry that matches. -/
def entriesDiags (S : Sorter) (sem : Sem) (pkg : PackageDetails) (id : Str) : List Affected → List Str
  | [] => []
  | a :: as =>
    (if a.unbounded pkg then [id] else []) ++
      if (a.matchesPkgM S sem pkg).1 then [] else entriesDiags S sem pkg id as

/-- `pkg/database/mem-check.go:61-65`: the messages of the loop over load positions. -/
def collectDiags (S : Sorter) (sem : Sem) (pkg : PackageDetails) (st : (Nat → OSV) × List Nat) : List Nat → List Str
  | [] => []
  | i :: is =>
    (if (st.1 i).withdrawn.isNone then entriesDiags S sem pkg (st.1 i).id (st.1 i).affected else []) ++
      collectDiags S sem pkg (collectStepM S sem pkg st i) is

/-- `pkg/database/mem-check.go:55-69` `VulnerabilitiesAffectingPackage`: its messages. -/
def HeapDB.affectingDiags (S : Sorter) (sem : Sem) (db : HeapDB) (pkg : PackageDetails) : List Str :=
  match db.index.get? pkg.key with
  | none => []
  | some is => collectDiags S sem pkg (db.heap, []) is

/-- `pkg/database/mem-check.go:71-79` `Check`: the ids of the advisories that there is a message about. -/
def HeapDB.checkDiags (S : Sorter) (sem : Sem) (db : HeapDB) : List PackageDetails → List Str
  | [] => []
  | p :: ps => db.affectingDiags S sem p ++ HeapDB.checkDiags S sem (db.affecting S sem p).2 ps

end Osv
