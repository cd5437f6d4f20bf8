import Verif.Model.Api
/-! # C13 API batching partitions the packages -/
namespace Osv

theorem batchLoop_eq {α : Type} (pkgs : List α) (size : Nat) (hs : 0 < size) (i : Nat) :
    batchLoop pkgs size hs i =
      if i < pkgs.length then (pkgs.drop i).take size :: batchLoop pkgs size hs (i + size) else [] := by
  rw [batchLoop]
  split
  · dsimp only
    congr 1
    rw [List.drop_take]
    by_cases h : i + size ≤ pkgs.length
    · rw [Nat.min_eq_left h]; congr 1; omega
    · rw [Nat.min_eq_right (by omega), List.take_of_length_le (by simp), List.take_of_length_le]
      simp; omega
  · rfl

/-- The batches, concatenated in order, are exactly the given packages. -/
theorem C13_concat {α : Type} (pkgs : List α) (size : Nat) (batches : List (List α))
    (h : batchPkgs pkgs size = some batches) : batches.flatten = pkgs := by
  unfold batchPkgs at h
  split at h
  · rename_i hs
    cases h
    have key : ∀ i, (batchLoop pkgs size hs i).flatten = pkgs.drop i := by
      intro i
      fun_induction batchLoop pkgs size hs i with
      | case1 i hi e ih =>
        rw [List.flatten_cons, ih, List.drop_take]
        by_cases h : i + size ≤ pkgs.length
        · have : e - i = size := by show min _ _ - i = _; omega
          rw [this, ← List.drop_drop, List.take_append_drop]
        · rw [List.drop_eq_nil_of_le (as := pkgs) (i := i + size) (by omega), List.append_nil,
            List.take_of_length_le]
          simp; omega
      | case2 i hi => rw [List.flatten_nil, List.drop_eq_nil_of_le (by omega)]
    simpa using key 0
  · cases h

/-- No batch is empty or larger than the batch size, and all but the last have exactly the batch size. -/
theorem C13_sizes {α : Type} (pkgs : List α) (size : Nat) (batches : List (List α))
    (h : batchPkgs pkgs size = some batches) :
    (∀ b ∈ batches, b ≠ [] ∧ b.length ≤ size) ∧ (∀ b ∈ batches.dropLast, b.length = size) := by
  unfold batchPkgs at h
  split at h
  · rename_i hs
    cases h
    have key : ∀ i, (∀ b ∈ batchLoop pkgs size hs i, b ≠ [] ∧ b.length ≤ size) ∧
        (∀ b ∈ (batchLoop pkgs size hs i).dropLast, b.length = size) := by
      intro i
      fun_induction batchLoop pkgs size hs i with
      | case1 i hi e ih =>
        have he : e = min (i + size) pkgs.length := rfl
        refine ⟨?_, ?_⟩
        · intro b hb
          rcases List.mem_cons.mp hb with rfl | hb
          · refine ⟨?_, by simp; omega⟩
            intro hn
            have := congrArg List.length hn
            simp at this; omega
          · exact ih.1 b hb
        · intro b hb
          by_cases hne : batchLoop pkgs size hs (i + size) = []
          · rw [hne] at hb; simp at hb
          · rw [List.dropLast_cons_of_ne_nil hne] at hb
            rcases List.mem_cons.mp hb with rfl | hb
            · have : i + size < pkgs.length := by
                apply Classical.byContradiction
                intro hlt
                apply hne
                rw [batchLoop, if_neg hlt]
              simp; omega
            · exact ih.2 b hb
      | case2 i hi => simp
    exact key 0
  · cases h

/-- Package number `i` is in the batch with number `i / size`, which consists of the packages from number `i / size * size` on. -/
theorem C13_block {α : Type} (pkgs : List α) (size : Nat) (batches : List (List α))
    (h : batchPkgs pkgs size = some batches) (i : Nat) (hi : i < pkgs.length) :
    batches[i / size]? = some ((pkgs.drop (i / size * size)).take size) := by
  unfold batchPkgs at h
  split at h
  · rename_i hs
    cases h
    have key : ∀ k j, j + k * size < pkgs.length → (batchLoop pkgs size hs j)[k]? =
        some ((pkgs.drop (j + k * size)).take size) := by
      intro k
      induction k with
      | zero =>
        intro j hj
        rw [batchLoop_eq, if_pos (by omega)]
        simp
      | succ k ih =>
        intro j hj
        have hj' : j + size + k * size < pkgs.length := by rw [Nat.succ_mul] at hj; omega
        rw [batchLoop_eq, if_pos (by omega), List.getElem?_cons_succ, ih _ hj']
        congr 3
        rw [Nat.succ_mul]; omega
    have hdm := Nat.div_add_mod i size
    have hmul : i / size * size = size * (i / size) := Nat.mul_comm ..
    rw [key (i / size) 0 (by omega), Nat.zero_add]
  · cases h

/-- The k-th batch holds the packages at positions `k * size` to `(k + 1) * size - 1`. -/
theorem C13_positions {α : Type} (pkgs : List α) (size : Nat) (batches : List (List α))
    (h : batchPkgs pkgs size = some batches) (i : Nat) (hi : i < pkgs.length) :
    ∃ b, batches[i / size]? = some b ∧ b[i % size]? = pkgs[i]? := by
  refine ⟨_, C13_block pkgs size batches h i hi, ?_⟩
  have hs : 0 < size := by
    unfold batchPkgs at h
    split at h
    · assumption
    · cases h
  have hdm := Nat.div_add_mod i size
  have hmul : i / size * size = size * (i / size) := Nat.mul_comm ..
  rw [List.getElem?_take_of_lt (Nat.mod_lt i hs), List.getElem?_drop]
  congr 1
  omega

/-- Batching never fails for a batch size of at least one, which `NewAPIDB` guarantees (C17). -/
theorem C13_total {α : Type} (pkgs : List α) (size : Nat) (hs : 0 < size) :
    ∃ batches, batchPkgs pkgs size = some batches := by
  unfold batchPkgs
  rw [dif_pos hs]
  exact ⟨_, rfl⟩

example : batchPkgs [1, 2, 3, 4, 5] 2 = some [[1, 2], [3, 4], [5]] := by
  simp [batchPkgs, batchLoop]

end Osv
