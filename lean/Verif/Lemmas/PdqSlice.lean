import Verif.Go.Sort
import Verif.Lemmas.PdqSorted
/-! # `sort.Slice` on lists -/
namespace Osv.Pdq

variable {α : Type}

theorem map_getD (x : α) (l : List α) : (List.range l.length).map (fun i => l.getD i x) = l := by
  apply List.ext_getElem?
  intro i
  rw [List.getElem?_map]
  by_cases h : i < l.length
  · rw [List.getElem?_range h, List.getElem?_eq_getElem h]
    simp [h]
  · rw [List.getElem?_eq_none (by simp; omega), List.getElem?_eq_none (by omega)]
    rfl

theorem slice_eq (less : α → α → Bool) (x : α) (xs : List α) : slice less (x :: xs) =
    (List.range (x :: xs).length).map (pdq less (xs.length + 1) (Nat.log2 (xs.length + 1) + 1) true true 0 (x :: xs).length
      fun i => (x :: xs).getD i x) := rfl

theorem slice_perm (less : α → α → Bool) (xs : List α) : (slice less xs).Perm xs := by
  cases xs with
  | nil => exact .refl _
  | cons x xs =>
    rw [slice_eq]
    refine ((pdq_moves less _ _ true true 0 _ _).perm (Nat.le_refl _)).trans ?_
    rw [map_getD]

theorem agree_of_pairwise {less lt : α → α → Bool} (x : α) {l : List α}
    (h : l.Pairwise fun a b => less a b = lt a b ∧ less b a = lt b a) : Agree less lt l.length fun i => l.getD i x := by
  intro i j hi hj hne
  rw [List.pairwise_iff_getElem] at h
  have e : ∀ k, (hk : k < l.length) → l.getD k x = l[k] := fun k hk => by simp [hk]
  dsimp only
  rw [e i hi, e j hj]
  rcases Nat.lt_or_gt_of_ne hne with h1 | h1
  · exact (h i j hi hj h1).1
  · exact (h j i hj hi h1).2

theorem slice_sorted (less lt : α → α → Bool) (xs : List α) (hw : StrictWeak lt)
    (h : xs.Pairwise fun a b => less a b = lt a b ∧ less b a = lt b a) : (slice less xs).Pairwise fun a b => lt b a = false := by
  cases xs with
  | nil => exact .nil
  | cons x xs =>
    rw [slice_eq]
    have hs := (pdq_sorted hw (n := (x :: xs).length) (xs.length + 1) (Nat.log2 (xs.length + 1) + 1) true true 0 (x :: xs).length
      (fun i => (x :: xs).getD i x) (by simp) (Nat.le_refl _) (agree_of_pairwise x h) (fun h0 => absurd h0 (Nat.lt_irrefl 0))).2
    rw [List.pairwise_iff_getElem]
    intro i j hi hj hij
    rw [List.length_map, List.length_range] at hi hj
    simp only [List.getElem_map, List.getElem_range]
    exact hs i j (Nat.zero_le _) hij hj

theorem slice_fixed (less : α → α → Bool) (xs : List α) (h : xs.Pairwise fun a b => less b a = false) : slice less xs = xs := by
  cases xs with
  | nil => rfl
  | cons x xs =>
    rw [slice_eq, pdq_fixed less _ _ (Nat.succ_pos _), map_getD]
    intro i j _ hij hj
    rw [List.pairwise_iff_getElem] at h
    have e : ∀ k, (hk : k < (x :: xs).length) → (x :: xs).getD k x = (x :: xs)[k] := fun k hk => by
      rw [List.getD_eq_getElem?_getD, List.getElem?_eq_getElem hk]; rfl
    rw [e j hj, e i (by omega)]
    exact h i j (by omega) hj hij

/-! ### Up to twelve elements -/

theorem sink_insertRev (less : α → α → Bool) : ∀ (i : Nat) (f : Nat → α),
    ((List.range (i + 1)).map (sink less 0 i f)).reverse = insertRev less (f i) ((List.range i).map f).reverse
  | 0, _ => rfl
  | i + 1, f => by
    have e1 : ∀ (n : Nat) (g : Nat → α), ((List.range (n + 1)).map g).reverse = g n :: ((List.range n).map g).reverse := by
      intro n g
      rw [List.range_succ, List.map_append, List.reverse_append]
      rfl
    rw [e1 (i + 1), e1 i f]
    unfold insertRev
    rw [sink]
    by_cases h : less (f (i + 1)) (f i) = true
    · rw [if_pos ⟨by omega, h⟩, if_pos h, sink_insertRev less i, (sink_moves less 0 i _).out (Or.inr (Nat.le_refl _)), swap_left, swap_right]
      congr 3
      apply List.map_congr_left
      intro k hk
      rw [List.mem_range] at hk
      exact swap_other f (by omega) (by omega)
    · rw [if_neg fun h' => h h'.2, if_neg h, e1 i f]

theorem insertLoop_foldl (less : α → α → Bool) : ∀ (n i : Nat) (f : Nat → α),
    ((List.range (i + n)).map (insertLoop less 0 n i f)).reverse =
      ((List.range n).map fun k => f (i + k)).foldl (fun rev x => insertRev less x rev) ((List.range i).map f).reverse
  | 0, _, _ => rfl
  | n + 1, i, f => by
    rw [insertLoop, show i + (n + 1) = i + 1 + n by omega, insertLoop_foldl less n (i + 1), sink_insertRev]
    rw [List.range_succ_eq_map, List.map_cons, List.foldl_cons, List.map_map]
    congr 1
    apply List.map_congr_left
    intro k _
    rw [(sink_moves less 0 i f).out (Or.inr (by omega))]
    show f (i + 1 + k) = f (i + (k + 1))
    rw [show i + 1 + k = i + (k + 1) by omega]

theorem slice_small (less : α → α → Bool) (xs : List α) (h : xs.length ≤ 12) : slice less xs = insertionSort less xs := by
  cases xs with
  | nil => rfl
  | cons x xs =>
    have hl : (x :: xs).length = xs.length + 1 := rfl
    rw [slice_eq, pdq_succ, if_pos (by omega)]
    unfold insertion insertionSort
    have e := insertLoop_foldl less xs.length 1 fun i => (x :: xs).getD i x
    rw [show 1 + xs.length = (x :: xs).length by rw [hl]; omega] at e
    rw [show (x :: xs).length - (0 + 1) = xs.length by omega, ← List.reverse_eq_iff, e]
    rw [List.foldl_cons]
    have e2 : ((List.range xs.length).map fun k => (x :: xs).getD (1 + k) x) = xs := by
      have : (fun k => (x :: xs).getD (1 + k) x) = fun k => xs.getD k x := by
        funext k
        rw [show 1 + k = k + 1 by omega]
        rfl
      rw [this, map_getD]
    rw [e2]
    rfl

end Osv.Pdq
