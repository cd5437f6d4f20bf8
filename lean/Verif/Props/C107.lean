import Verif.Lemmas.PdqSlice
import Verif.Props.C01
import Verif.Props.C38
/-! # C107 `sort.Slice` as it runs -/
namespace Osv
open Spec

/-- The elements of the slice are kept, for every comparison. -/
theorem C107_perm {α : Type} (less : α → α → Bool) (xs : List α) : (Pdq.slice less xs).Perm xs := Pdq.slice_perm less xs

/-- The slice is sorted when the comparison is an order on elements at different indices. -/
theorem C107_sorted {α : Type} (less lt : α → α → Bool) (xs : List α) (hw : StrictWeak lt)
    (h : xs.Pairwise fun a b => less a b = lt a b ∧ less b a = lt b a) : (Pdq.slice less xs).Pairwise fun a b => lt b a = false :=
  Pdq.slice_sorted less lt xs hw h

/-- A slice in order is left as it is, for every comparison. -/
theorem C107_fixed {α : Type} (less : α → α → Bool) (xs : List α) (h : xs.Pairwise fun a b => less b a = false) :
    Pdq.slice less xs = xs := Pdq.slice_fixed less xs h

/-- Up to twelve elements are sorted by insertion. -/
theorem C107_small {α : Type} (less : α → α → Bool) (xs : List α) (h : xs.length ≤ 12) :
    Pdq.slice less xs = insertionSort less xs := Pdq.slice_small less xs h

/-- The algorithm of Go's library fulfils the contract that all other theorems ask of a sorter. -/
def Sorter.pdq : Sorter where
  sort := Pdq.slice
  perm := C107_perm
  sorted := C107_sorted
  fixed := C107_fixed

/-- Elements that differ are told apart by the order: then all sorters agree. -/
theorem C107_unique {α : Type} (S : Sorter) (less lt : α → α → Bool) (xs : List α) (hw : StrictWeak lt)
    (h : xs.Pairwise fun a b => less a b = lt a b ∧ less b a = lt b a)
    (ht : ∀ a ∈ xs, ∀ b ∈ xs, lt a b = false → lt b a = false → a = b) : S.sort less xs = Pdq.slice less xs := by
  refine ((S.perm less xs).trans (C107_perm less xs).symm).eq_of_pairwise (le := fun a b => lt b a = false) ?_
    (S.sorted less lt xs hw h) (C107_sorted less lt xs hw h)
  intro a b ha hb h1 h2
  exact ht a ((S.perm less xs).mem_iff.mp ha) b ((C107_perm less xs).mem_iff.mp hb) h2 h1

/-- Ranges of versions with the algorithm that runs. -/
theorem C107_ranges (sem : Sem) (r : AffectsRange) (pkg : PackageDetails)
    (hc : CmpLaws (sem pkg.compareAs)) (hw : WellFormed (sem pkg.compareAs) r.events) :
    r.containsVersion Sorter.pdq sem pkg = true ↔
      (r.type = g!"ECOSYSTEM" ∨ r.type = g!"SEMVER") ∧ InRange (sem pkg.compareAs) r.events pkg.version :=
  C01_range_intervals Sorter.pdq sem r pkg hc hw

/-! The order of equal elements: kept by insertion, lost by the pivots. -/

def pairLess (a b : Nat × Nat) : Bool := a.1 < b.1

/-- Thirteen pairs. -/
def manyPairs : List (Nat × Nat) :=
  [(1, 0), (0, 1), (1, 2), (0, 3), (1, 4), (0, 5), (1, 6), (0, 7), (1, 8), (0, 9), (1, 10), (0, 11), (1, 12)]

/-- The claim that equal elements keep their order. -/
def C107_stable_full : Prop :=
  ∀ xs : List (Nat × Nat), Pdq.slice pairLess xs = insertionSort pairLess xs

theorem C107_unstable : ¬ C107_stable_full := by
  intro h
  exact absurd (h manyPairs) (by decide +kernel)

example : manyPairs.length = 13 := by decide

example : (Pdq.slice pairLess manyPairs).Pairwise fun a b => pairLess b a = false :=
  C107_sorted pairLess pairLess manyPairs
    { irrefl := fun a => by simp [pairLess]
      trans := fun a b c h1 h2 => by simp [pairLess] at *; omega
      cotrans := fun a b c h => by simp [pairLess] at *; omega }
    (by decide)

example : Pdq.slice pairLess ((List.range 20).map fun i => (i / 2, i)) = (List.range 20).map fun i => (i / 2, i) :=
  C107_fixed _ _ (by decide)

#print axioms C107_perm
#print axioms C107_sorted
#print axioms C107_fixed
#print axioms C107_small
#print axioms C107_unique
#print axioms C107_ranges
#print axioms C107_unstable

end Osv
