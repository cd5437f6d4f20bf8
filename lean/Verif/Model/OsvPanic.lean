import Verif.Model.MemHeap
/-!
# Version comparison with panics

`semantic.MustParse` (osv-scalibr) panics when the ecosystem is not supported or the version is not valid in it.  Which pairs
it accepts is a parameter `parses`.  `Verif.Model.Osv` and `Verif.Model.MemHeap` model the same functions under the assumption
that it accepts everything.
-/
namespace Osv

/-- `sort.Slice` with a `less` function that may panic (`none`). Which pairs are compared is up to the algorithm; if no comparison
panics it is the sort routine `S`. -/
structure PanicSorter (S : Sorter) where
  sort : {α : Type} → (α → α → Option Bool) → List α → Option (List α)
  total : ∀ {α : Type} (less : α → α → Option Bool) (less' : α → α → Bool) (xs : List α),
    (∀ a ∈ xs, ∀ b ∈ xs, less a b = some (less' a b)) → sort less xs = some (S.sort less' xs)

/-- The inner loop of Go's insertion sort with a `less` that may panic, see `insertRev`. -/
def insertRevP {α : Type} (less : α → α → Option Bool) (x : α) : List α → Option (List α)
  | [] => some [x]
  | y :: ys => (less x y).bind fun b => if b then (insertRevP less x ys).map (y :: ·) else some (x :: y :: ys)

/-- Go's insertion sort with a `less` that may panic, see `insertionSort`. -/
def insertionSortP {α : Type} (less : α → α → Option Bool) (xs : List α) : Option (List α) :=
  (xs.foldl (fun (acc : Option (List α)) x => acc.bind (insertRevP less x)) (some [])).map List.reverse

theorem insertRevP_total {α : Type} (less : α → α → Option Bool) (less' : α → α → Bool) (x : α) (l : List α)
    (h : ∀ y ∈ l, less x y = some (less' x y)) : insertRevP less x l = some (insertRev less' x l) := by
  induction l with
  | nil => rfl
  | cons y ys ih =>
    unfold insertRevP insertRev
    rw [h y (by simp), ih fun z hz => h z (by simp [hz])]
    cases less' x y <;> rfl

/-- Go's insertion sort satisfies the contract. -/
def PanicSorter.insertion : PanicSorter Sorter.insertion where
  sort := insertionSortP
  total := by
    intro α less less' xs h
    show insertionSortP less xs = some (insertionSort less' xs)
    unfold insertionSortP insertionSort
    have key : ∀ (ys acc : List α), (∀ a ∈ ys, ∀ b ∈ ys, less a b = some (less' a b)) →
        (∀ a ∈ ys, ∀ b ∈ acc, less a b = some (less' a b)) →
        ys.foldl (fun (acc : Option (List α)) x => acc.bind (insertRevP less x)) (some acc) =
          some (ys.foldl (fun rev x => insertRev less' x rev) acc) := by
      intro ys
      induction ys with
      | nil => intro acc _ _; rfl
      | cons y ys ih =>
        intro acc h1 h2
        rw [List.foldl_cons, List.foldl_cons, Option.bind_some, insertRevP_total less less' y acc (h2 y (by simp))]
        refine ih _ (fun a ha b hb => h1 a (by simp [ha]) b (by simp [hb])) fun a ha b hb => ?_
        rcases List.mem_cons.mp ((insertRev_perm less' y acc).mem_iff.mp hb) with rfl | hb
        · exact h1 a (by simp [ha]) b (by simp)
        · exact h2 a (by simp [ha]) b hb
    rw [key xs [] h (by simp)]
    rfl

/-- `pkg/database/osv.go:98-114`: the `less` function with the `MustParse` of line 111. -/
def eventLessP (parses : Str → Bool) (cmp : Str → Str → Int) (a b : RangeEvent) : Option Bool :=
  if a.introduced = g!"0" then some true
  else if b.introduced = g!"0" then some false
  else if parses a.version then some (decide (cmp a.version b.version < 0))
  else none

/-- `pkg/database/osv.go:87-133` `containsVersion`, as `AffectsRange.containsVersionM`, with the `MustParse` of lines 96 and 111;
`none` is a panic. -/
def AffectsRange.containsVersionP {S : Sorter} (T : PanicSorter S) (parses : Ecosystem → Str → Bool) (sem : Sem)
    (r : AffectsRange) (pkg : PackageDetails) : Option (Bool × AffectsRange) :=
  if !r.versioned then some (false, r)
  else if r.events.length = 0 then some (false, r)
  else if !parses pkg.compareAs pkg.version then none
  else (T.sort (eventLessP (parses pkg.compareAs) (sem pkg.compareAs)) r.events).map fun es =>
    (eventsContain (sem pkg.compareAs) pkg.version es, { r with events := es })

/-- `pkg/database/osv.go:139-150` `affectsVersion`, as `affectsVersionM`; `none` is a panic. -/
def affectsVersionP {S : Sorter} (T : PanicSorter S) (parses : Ecosystem → Str → Bool) (sem : Sem) (pkg : PackageDetails) :
    List AffectsRange → Option (Bool × List AffectsRange)
  | [] => some (false, [])
  | r :: rs =>
    if !r.versioned then some (false, r :: rs)
    else (r.containsVersionP T parses sem pkg).bind fun c =>
      if c.1 then some (true, c.2 :: rs)
      else (affectsVersionP T parses sem pkg rs).map fun t => (t.1, c.2 :: t.2)

/-- `pkg/database/osv.go:285-310`: one entry of `IsAffected`, as `Affected.matchesPkgM`; `none` is a panic. -/
def Affected.matchesPkgP {S : Sorter} (T : PanicSorter S) (parses : Ecosystem → Str → Bool) (sem : Sem) (a : Affected)
    (pkg : PackageDetails) : Option (Bool × Affected) :=
  if areEcosystemsEqual a.package.ecosystem pkg.ecosystem && decide (a.package.normalizedName = pkg.name) then
    if a.ranges.length = 0 ∧ a.versions.length = 0 then some (false, a)
    else if a.versions.contains pkg.version then some (true, a)
    else (affectsVersionP T parses sem pkg a.ranges).map fun t =>
      (t.1 || decide (pkg.version = []), { a with ranges := t.2 })
  else some (false, a)

/-- `pkg/database/osv.go:284-313` `IsAffected`, as `matchEntriesM`; `none` is a panic. -/
def matchEntriesP {S : Sorter} (T : PanicSorter S) (parses : Ecosystem → Str → Bool) (sem : Sem) (pkg : PackageDetails) :
    List Affected → Option (Bool × List Affected)
  | [] => some (false, [])
  | a :: as => (a.matchesPkgP T parses sem pkg).bind fun c =>
    if c.1 then some (true, c.2 :: as)
    else (matchEntriesP T parses sem pkg as).map fun t => (t.1, c.2 :: t.2)

/-- Loop body of `pkg/database/mem-check.go:61-65`, as `collectStepM`; `none` is a panic. -/
def collectStepP {S : Sorter} (T : PanicSorter S) (parses : Ecosystem → Str → Bool) (sem : Sem) (pkg : PackageDetails)
    (st : (Nat → OSV) × List Nat) (i : Nat) : Option ((Nat → OSV) × List Nat) :=
  let v := st.1 i
  if v.withdrawn.isNone then
    (matchEntriesP T parses sem pkg v.affected).map fun t =>
      let heap' := fun j => if j = i then { v with affected := t.2 } else st.1 j
      if t.1 && !includesVuln (st.2.map st.1) v then (heap', st.2 ++ [i]) else (heap', st.2)
  else some st

/-- The loop of `pkg/database/mem-check.go:61-65`; `none` is a panic. -/
def collectP {S : Sorter} (T : PanicSorter S) (parses : Ecosystem → Str → Bool) (sem : Sem) (pkg : PackageDetails)
    (st : (Nat → OSV) × List Nat) : List Nat → Option ((Nat → OSV) × List Nat)
  | [] => some st
  | i :: is => (collectStepP T parses sem pkg st i).bind fun st => collectP T parses sem pkg st is

/-- `pkg/database/mem-check.go:55-69` `VulnerabilitiesAffectingPackage`, as `HeapDB.affecting`; `none` is a panic. -/
def HeapDB.affectingP {S : Sorter} (T : PanicSorter S) (parses : Ecosystem → Str → Bool) (sem : Sem) (db : HeapDB)
    (pkg : PackageDetails) : Option (List Nat × HeapDB) :=
  match db.index.get? pkg.key with
  | none => some ([], db)
  | some is => (collectP T parses sem pkg (db.heap, []) is).map fun st => (st.2, { db with heap := st.1 })

/-- `pkg/database/mem-check.go:71-79` `Check`, as `HeapDB.check`; `none` is a panic. -/
def HeapDB.checkP {S : Sorter} (T : PanicSorter S) (parses : Ecosystem → Str → Bool) (sem : Sem) (db : HeapDB) :
    List PackageDetails → Option (List (List Nat) × HeapDB)
  | [] => some ([], db)
  | p :: ps => (db.affectingP T parses sem p).bind fun a =>
    (HeapDB.checkP T parses sem a.2 ps).map fun t => (a.1 :: t.1, t.2)

end Osv
