import Verif.Go.Str
import Verif.Go.Sort
/-!
# Sorting strings

`slices.Sort` on strings.  The order is total, so the result does not depend on the algorithm:
`sortStr_unique` and `Sorter.sort_str`.
-/
namespace Osv

theorem Str.lt_iff (a b : Str) : Str.lt a b = true ↔ a < b := by simp [Str.lt]

theorem Str.lt_total {a b : Str} (h1 : Str.lt a b = false) (h2 : Str.lt b a = false) : a = b := by
  simp only [Str.lt, decide_eq_false_iff_not, List.not_lt] at h1 h2
  exact List.le_antisymm h2 h1

theorem Str.lt_strictWeak : StrictWeak Str.lt where
  irrefl a := by simp [Str.lt, List.lt_irrefl]
  trans a b c h1 h2 := by
    rw [Str.lt_iff] at *; exact List.lt_trans h1 h2
  cotrans a b c h := by
    cases h1 : Str.lt a b with
    | true => exact .inl rfl
    | false =>
      right
      cases h2 : Str.lt b a with
      | true => rw [Str.lt_iff] at *; exact List.lt_trans h2 h
      | false => rw [Str.lt_total h1 h2] at h; exact h

/-- `slices.Sort` on a slice of strings. -/
def sortStr (l : List Str) : List Str := insertionSort Str.lt l

theorem sortStr_perm (l : List Str) : (sortStr l).Perm l := insertionSort_perm _ _

/-- `a ≤ b` on strings, as a relation. -/
def Str.Le (a b : Str) : Prop := Str.lt b a = false

theorem sortStr_sorted (l : List Str) : (sortStr l).Pairwise Str.Le :=
  Sorter.insertion.sorted Str.lt Str.lt l Str.lt_strictWeak
    (List.pairwise_iff_forall_sublist.2 fun _ => ⟨rfl, rfl⟩)

/-- A sorted list is determined by its elements. -/
theorem sorted_unique {l l' : List Str} (hp : l.Perm l') (h : l.Pairwise Str.Le) (h' : l'.Pairwise Str.Le) :
    l = l' := by
  induction l generalizing l' with
  | nil => exact (List.nil_perm.1 hp).symm
  | cons a l ih =>
    cases l' with
    | nil => exact absurd hp.length_eq (by simp)
    | cons b l' =>
      rw [List.pairwise_cons] at h h'
      have hab : a = b := by
        have ha : a ∈ b :: l' := hp.mem_iff.1 (by simp)
        have hb : b ∈ a :: l := hp.mem_iff.2 (by simp)
        rcases List.mem_cons.1 ha with h1 | h1
        · exact h1
        · rcases List.mem_cons.1 hb with h2 | h2
          · exact h2.symm
          · exact Str.lt_total (h'.1 a h1) (h.1 b h2)
      subst hab
      rw [ih (List.Perm.cons_inv hp) h.2 h'.2]

theorem sortStr_unique {l l' : List Str} (hp : l'.Perm l) (h : l'.Pairwise Str.Le) : sortStr l = l' :=
  sorted_unique ((sortStr_perm l).trans hp.symm) (sortStr_sorted l) h

theorem sortStr_eq_of_perm {l l' : List Str} (hp : l.Perm l') : sortStr l = sortStr l' :=
  sortStr_unique ((sortStr_perm l').trans hp.symm) (sortStr_sorted l')

/-- Every sort routine gives the same result. -/
theorem Sorter.sort_str (S : Sorter) (l : List Str) : S.sort Str.lt l = sortStr l :=
  (sortStr_unique (S.perm _ _) (S.sorted Str.lt Str.lt l Str.lt_strictWeak
    (List.pairwise_iff_forall_sublist.2 fun _ => ⟨rfl, rfl⟩))).symm

theorem mem_sortStr (l : List Str) (a : Str) : a ∈ sortStr l ↔ a ∈ l := (sortStr_perm l).mem_iff

end Osv
