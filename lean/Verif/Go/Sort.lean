/-!
# `sort.Slice`

Go's `sort.Slice(x, less)` is pattern-defeating quicksort and not stable.  The model does not fix an
algorithm: a `Sorter` is any function that satisfies the contract below, and all theorems hold for every
`Sorter`.  The contract is what the algorithm in Go's standard library guarantees:

* the result is a permutation of the input;
* it is sorted when `less` behaves like a strict weak order on pairs of *different positions* (the
  algorithm never compares a position with itself);
* an input in which no later element is `less` than an earlier one is left unchanged (for up to 12
  elements this is insertion sort; beyond that the first pivot choice reports no swaps and the partial
  insertion sort returns immediately).

`Sorter.insertion` is Go's insertion sort and shows that the contract is satisfiable.  The algorithm of Go's library itself is in
`Go/PdqSort.lean`; C107 proves that it satisfies the contract (`Sorter.pdq`).
-/
namespace Osv

/-- Strict weak order, as a Boolean function. -/
structure StrictWeak {α : Type} (lt : α → α → Bool) : Prop where
  irrefl : ∀ a, lt a a = false
  trans : ∀ a b c, lt a b = true → lt b c = true → lt a c = true
  /-- incomparability is transitive, in its usual contrapositive form -/
  cotrans : ∀ a b c, lt a c = true → lt a b = true ∨ lt b c = true

/-- Any implementation of Go's `sort.Slice` contract (Go standard library, `sort.Slice`). -/
structure Sorter where
  sort : {α : Type} → (α → α → Bool) → List α → List α
  perm : ∀ {α : Type} (less : α → α → Bool) (xs : List α), (sort less xs).Perm xs
  sorted : ∀ {α : Type} (less lt : α → α → Bool) (xs : List α), StrictWeak lt →
    xs.Pairwise (fun a b => less a b = lt a b ∧ less b a = lt b a) →
    (sort less xs).Pairwise (fun a b => lt b a = false)
  fixed : ∀ {α : Type} (less : α → α → Bool) (xs : List α),
    xs.Pairwise (fun a b => less b a = false) → sort less xs = xs

/-- Inner loop of `insertionSort_func` in Go's `sort` package: the sorted prefix is kept reversed, the new
element moves left past every element it is `less` than, stopping at the first it is not. -/
def insertRev {α : Type} (less : α → α → Bool) (x : α) : List α → List α
  | [] => [x]
  | y :: ys => if less x y then y :: insertRev less x ys else x :: y :: ys

/-- `insertionSort_func` in Go's `sort` package (used for at most 12 elements). -/
def insertionSort {α : Type} (less : α → α → Bool) (xs : List α) : List α :=
  (xs.foldl (fun rev x => insertRev less x rev) []).reverse

theorem insertRev_perm {α : Type} (less : α → α → Bool) (x : α) (l : List α) :
    (insertRev less x l).Perm (x :: l) := by
  induction l with
  | nil => exact .refl _
  | cons y ys ih =>
    unfold insertRev
    split
    · exact (List.Perm.cons y ih).trans (List.Perm.swap x y ys)
    · exact .refl _

theorem foldl_insertRev_perm {α : Type} (less : α → α → Bool) (xs acc : List α) :
    (xs.foldl (fun rev x => insertRev less x rev) acc).Perm (xs ++ acc) := by
  induction xs generalizing acc with
  | nil => exact .refl _
  | cons x xs ih =>
    refine (ih _).trans ?_
    refine (List.Perm.append_left xs (insertRev_perm less x acc)).trans ?_
    exact List.perm_middle

theorem insertionSort_perm {α : Type} (less : α → α → Bool) (xs : List α) :
    (insertionSort less xs).Perm xs := by
  unfold insertionSort
  refine (List.reverse_perm _).trans ?_
  simpa using foldl_insertRev_perm less xs []

theorem insertRev_sorted {α : Type} (less lt : α → α → Bool) (hw : StrictWeak lt) (x : α) (l : List α)
    (hl : l.Pairwise (fun a b => lt a b = false))
    (hx : ∀ y ∈ l, less x y = lt x y) :
    (insertRev less x l).Pairwise (fun a b => lt a b = false) := by
  induction l with
  | nil => simp [insertRev]
  | cons y ys ih =>
    have hl' := List.pairwise_cons.mp hl
    unfold insertRev
    split
    · rename_i hxy
      rw [List.pairwise_cons]
      refine ⟨?_, ih hl'.2 (fun z hz => hx z (List.mem_cons_of_mem _ hz))⟩
      intro z hz
      have hz' := (insertRev_perm less x ys).mem_iff.mp hz
      rcases List.mem_cons.mp hz' with rfl | hz''
      · rw [hx y (List.mem_cons_self ..)] at hxy
        cases h : lt y z with
        | false => rfl
        | true => have := hw.trans _ _ _ h hxy; rw [hw.irrefl] at this; cases this
      · exact hl'.1 z hz''
    · rename_i hxy
      rw [List.pairwise_cons]
      refine ⟨?_, hl⟩
      intro z hz
      have hxy' : lt x y = false := by
        have := hx y (List.mem_cons_self ..)
        cases h : lt x y with
        | false => rfl
        | true => rw [h] at this; exact absurd this hxy
      rcases List.mem_cons.mp hz with rfl | hz''
      · exact hxy'
      · cases h : lt x z with
        | false => rfl
        | true =>
          rcases hw.cotrans _ y _ h with h1 | h1
          · rw [hxy'] at h1; cases h1
          · rw [hl'.1 z hz''] at h1; cases h1

theorem foldl_insertRev_sorted {α : Type} (less lt : α → α → Bool) (hw : StrictWeak lt) (xs acc : List α)
    (hacc : acc.Pairwise (fun a b => lt a b = false))
    (hx : xs.Pairwise (fun a b => less a b = lt a b ∧ less b a = lt b a))
    (hxa : ∀ x ∈ xs, ∀ y ∈ acc, less x y = lt x y) :
    (xs.foldl (fun rev x => insertRev less x rev) acc).Pairwise (fun a b => lt a b = false) := by
  induction xs generalizing acc with
  | nil => exact hacc
  | cons x xs ih =>
    have hx' := List.pairwise_cons.mp hx
    apply ih
    · exact insertRev_sorted less lt hw x acc hacc (fun y hy => hxa x (List.mem_cons_self ..) y hy)
    · exact hx'.2
    · intro z hz y hy
      have := (insertRev_perm less x acc).mem_iff.mp hy
      rcases List.mem_cons.mp this with rfl | h
      · exact (hx'.1 z hz).2
      · exact hxa z (List.mem_cons_of_mem _ hz) y h

theorem foldl_insertRev_fixed {α : Type} (less : α → α → Bool) (xs acc : List α)
    (hx : xs.Pairwise (fun a b => less b a = false))
    (hxa : ∀ x ∈ xs, ∀ y ∈ acc, less x y = false) :
    xs.foldl (fun rev x => insertRev less x rev) acc = xs.reverse ++ acc := by
  induction xs generalizing acc with
  | nil => rfl
  | cons x xs ih =>
    have hx' := List.pairwise_cons.mp hx
    have h1 : insertRev less x acc = x :: acc := by
      cases acc with
      | nil => rfl
      | cons y ys => simp [insertRev, hxa x (List.mem_cons_self ..) y (List.mem_cons_self ..)]
    rw [List.foldl_cons, h1, ih _ hx'.2]
    · simp
    · intro z hz y hy
      rcases List.mem_cons.mp hy with rfl | h
      · exact hx'.1 z hz
      · exact hxa z (List.mem_cons_of_mem _ hz) y h

/-- Go's insertion sort satisfies the contract. -/
def Sorter.insertion : Sorter where
  sort := insertionSort
  perm := insertionSort_perm
  sorted := by
    intro α less lt xs hw hx
    unfold insertionSort
    rw [List.pairwise_reverse]
    exact foldl_insertRev_sorted less lt hw xs [] List.Pairwise.nil hx (by simp)
  fixed := by
    intro α less xs hx
    unfold insertionSort
    rw [foldl_insertRev_fixed less xs [] hx (by simp)]
    simp

end Osv
