import Verif.Lemmas.PdqMoves
/-! # Partitions -/
namespace Osv.Pdq

variable {α : Type}

theorem place_pivot (q : α → Bool) {a b i j : Nat} {g h : Nat → α} (hm : Moves (a + 1) b g h) (hi : a + 1 ≤ i) (hb : i ≤ b) (hj : i = j + 1)
    (h1 : ∀ k, a + 1 ≤ k → k < i → q (h k) = true) (h2 : ∀ k, i ≤ k → k < b → q (h k) = false) :
    Moves a b g (swap h j a) ∧ swap h j a j = g a ∧ (∀ k, a ≤ k → k < j → q (swap h j a k) = true) ∧
    ∀ k, j < k → k < b → q (swap h j a k) = false := by
  refine ⟨(hm.mono (by omega) (Nat.le_refl _)).swap (by omega) (by omega) (by omega) (by omega), ?_, ?_, ?_⟩
  · rw [swap_left, hm.out (by omega)]
  · intro k hk hk'
    by_cases e : k = a
    · rw [e, swap_right]; exact h1 j (by omega) (by omega)
    · rw [swap_other h (by omega) e]; exact h1 k (by omega) (by omega)
  · intro k hk hk'
    rw [swap_other h (by omega) (by omega)]
    exact h2 k (by omega) hk'

theorem partition_spec (less : α → α → Bool) {a b pivot : Nat} (f : Nat → α) (hp : a ≤ pivot) (hb : pivot < b) :
    Moves a b f (partition less a b pivot f).1 ∧ a ≤ (partition less a b pivot f).2.1 ∧ (partition less a b pivot f).2.1 < b ∧
    (∀ k, a ≤ k → k < (partition less a b pivot f).2.1 →
      less ((partition less a b pivot f).1 k) ((partition less a b pivot f).1 (partition less a b pivot f).2.1) = true) ∧
    ∀ k, (partition less a b pivot f).2.1 < k → k < b →
      less ((partition less a b pivot f).1 k) ((partition less a b pivot f).1 (partition less a b pivot f).2.1) = false := by
  have m0 : Moves a b f (swap f a pivot) := Moves.one (by omega) (by omega) hp hb
  unfold partition
  dsimp only
  revert m0
  generalize swap f a pivot = g
  intro m0
  have ub := up_bounds (fun x => less x (g a)) g (b - (a + 1)) (a + 1) (b - 1) (by omega)
  obtain ⟨u1, u2⟩ := up_all (fun x => less x (g a)) g (b - (a + 1)) (a + 1) (b - 1) (by omega)
  revert ub u1 u2
  generalize up (fun x => less x (g a)) g (b - (a + 1)) (a + 1) (b - 1) = u
  intro ub u1 u2
  have db := down_bounds (fun x => less x (g a)) g (b - u) u (b - 1) (by omega) (by omega)
  obtain ⟨d1, d2⟩ := down_all (fun x => less x (g a)) g (b - u) u (b - 1) (by omega) (by omega)
  revert db d1 d2
  generalize down (fun x => less x (g a)) g (b - u) u (b - 1) = d
  intro db d1 d2
  split
  · obtain ⟨p1, p2, p3, p4⟩ := place_pivot (fun x => less x (g a)) (i := u) (j := d) (b := b) (Moves.refl (f := g)) ub.1 (by omega) (by omega) u1
      fun k h3 h4 => d1 k (by omega) (by omega)
    dsimp only
    rw [p2]
    exact ⟨m0.trans p1, by omega, by omega, p3, p4⟩
  · rename_i hge
    have hne : u ≠ d := by
      intro e
      have := u2 (by omega)
      rw [e, d2 (by omega)] at this
      cases this
    obtain ⟨r1, r2, r3, r4, r5, r6⟩ := partLoop_spec (fun x => less x (g a)) (b - a) (u + 1) (d - 1) (swap g u d) (by omega) (by omega) (by omega)
    revert r1 r2 r3 r4 r5 r6
    generalize partLoop (fun x => less x (g a)) (b - a) (u + 1) (d - 1) (swap g u d) = r
    intro r1 r2 r3 r4 r5 r6
    have m1 : Moves (a + 1) b g (swap g u d) := Moves.one (by omega) (by omega) (by omega) (by omega)
    obtain ⟨p1, p2, p3, p4⟩ := place_pivot (fun x => less x (g a)) (i := r.2.1) (j := r.2.2) (m1.trans (r1.mono (by omega) (by omega)))
      (by omega) (by omega) r4 (fun k h3 h4 => by
        by_cases hk : u + 1 ≤ k
        · exact r5 k hk h4
        · rw [r1.out (by omega)]
          by_cases e : k = u
          · rw [e, swap_left]; exact d2 (by omega)
          · rw [swap_other g e (by omega)]; exact u1 k h3 (by omega)) (fun k h3 h4 => by
        by_cases hk : k ≤ d - 1
        · exact r6 k h3 hk
        · rw [r1.out (by omega)]
          by_cases e : k = d
          · rw [e, swap_right]; exact u2 (by omega)
          · rw [swap_other g (by omega) e]; exact d1 k (by omega) (by omega))
    dsimp only
    rw [p2]
    exact ⟨m0.trans p1, by omega, by omega, p3, p4⟩

theorem partitionEqual_spec (less : α → α → Bool) {a b pivot : Nat} (f : Nat → α) (hp : a ≤ pivot) (hb : pivot < b) :
    Moves a b f (partitionEqual less a b pivot f).1 ∧ a + 1 ≤ (partitionEqual less a b pivot f).2 ∧ (partitionEqual less a b pivot f).2 ≤ b ∧
    (partitionEqual less a b pivot f).1 a = f pivot ∧
    (∀ k, a + 1 ≤ k → k < (partitionEqual less a b pivot f).2 → less (f pivot) ((partitionEqual less a b pivot f).1 k) = false) ∧
    ∀ k, (partitionEqual less a b pivot f).2 ≤ k → k < b → less (f pivot) ((partitionEqual less a b pivot f).1 k) = true := by
  have m0 : Moves a b f (swap f a pivot) := Moves.one (by omega) (by omega) hp hb
  have e0 := swap_left f a pivot
  unfold partitionEqual
  dsimp only
  revert m0 e0
  generalize swap f a pivot = g
  intro m0 e0
  rw [e0]
  obtain ⟨r1, r2, r3, r4, r5, r6⟩ := partLoop_spec (fun x => !less (f pivot) x) (b - a) (a + 1) (b - 1) g (by omega) (by omega) (by omega)
  revert r1 r2 r3 r4 r5 r6
  generalize partLoop (fun x => !less (f pivot) x) (b - a) (a + 1) (b - 1) g = r
  intro r1 r2 r3 r4 r5 r6
  refine ⟨m0.trans (r1.mono (by omega) (by omega)), by omega, by omega, ?_, fun k h3 h4 => ?_, fun k h3 h4 => ?_⟩
  · rw [r1.out (by omega), e0]
  · simpa using r5 k h3 h4
  · simpa using r6 k h3 (by omega)

/-! ### The whole algorithm only swaps -/

/-- The state after the attempts to find out that the slice is sorted. -/
def attempt (less : α → α → Bool) (wb wp : Bool) (a b : Nat) (f : Nat → α) : (Nat → α) × Nat × Bool :=
  let f := if wb then f else breakPatterns a b f
  let p := prepare less a b f
  let s := if wb && wp && p.2.2 then partialInsertion less a b p.1 else (p.1, false)
  (s.1, p.2.1, s.2)

theorem pdq_succ (less : α → α → Bool) (n limit : Nat) (wb wp : Bool) (a b : Nat) (f : Nat → α) :
    pdq less (n + 1) limit wb wp a b f =
      if b - a ≤ 12 then insertion less a b f
      else if limit = 0 then heapSort less a b f
      else if (attempt less wb wp a b f).2.2 then (attempt less wb wp a b f).1
      else if 0 < a ∧ less ((attempt less wb wp a b f).1 (a - 1)) ((attempt less wb wp a b f).1 (attempt less wb wp a b f).2.1) = false then
        pdq less n (if wb then limit else limit - 1) wb wp
          (partitionEqual less a b (attempt less wb wp a b f).2.1 (attempt less wb wp a b f).1).2 b
          (partitionEqual less a b (attempt less wb wp a b f).2.1 (attempt less wb wp a b f).1).1
      else
        let m := partition less a b (attempt less wb wp a b f).2.1 (attempt less wb wp a b f).1
        if m.2.1 - a < b - m.2.1 then
          pdq less n (if wb then limit else limit - 1) ((b - a) / 8 ≤ m.2.1 - a) m.2.2 (m.2.1 + 1) b
            (pdq less n (if wb then limit else limit - 1) true true a m.2.1 m.1)
        else pdq less n (if wb then limit else limit - 1) ((b - a) / 8 ≤ b - m.2.1) m.2.2 a m.2.1
            (pdq less n (if wb then limit else limit - 1) true true (m.2.1 + 1) b m.1) := by
  rfl

theorem attempt_moves (less : α → α → Bool) (wb wp : Bool) {a b : Nat} (f : Nat → α) (h : a < b) :
    Moves 0 b f (attempt less wb wp a b f).1 ∧ a ≤ (attempt less wb wp a b f).2.1 ∧ (attempt less wb wp a b f).2.1 < b := by
  unfold attempt
  dsimp only
  have m0 : Moves 0 b f (if wb then f else breakPatterns a b f) := by
    split
    · exact .refl
    · exact (breakPatterns_moves f).mono (Nat.zero_le _) (Nat.le_refl _)
  revert m0
  generalize (if wb then f else breakPatterns a b f) = g
  intro m0
  obtain ⟨m1, p1, p2⟩ := prepare_spec less g h
  refine ⟨(m0.trans (m1.mono (Nat.zero_le _) (Nat.le_refl _))).trans ?_, p1, p2⟩
  split
  · exact partialLoop_moves less a b 5 (a + 1) _ (by omega) (by omega)
  · exact .refl

theorem pdq_moves (less : α → α → Bool) : ∀ (n limit : Nat) (wb wp : Bool) (a b : Nat) (f : Nat → α),
    Moves 0 b f (pdq less n limit wb wp a b f)
  | 0, _, _, _, _, _, _ => .refl
  | n + 1, limit, wb, wp, a, b, f => by
    rw [pdq_succ]
    by_cases h1 : b - a ≤ 12
    · rw [if_pos h1]; exact (insertion_moves less f).mono (Nat.zero_le _) (Nat.le_refl _)
    · rw [if_neg h1]
      by_cases h2 : limit = 0
      · rw [if_pos h2]; exact (heapSort_moves less (by omega) f).mono (Nat.zero_le _) (Nat.le_refl _)
      · rw [if_neg h2]
        obtain ⟨m0, p1, p2⟩ := attempt_moves less wb wp f (a := a) (b := b) (by omega)
        revert m0 p1 p2
        generalize attempt less wb wp a b f = s
        intro m0 p1 p2
        split
        · exact m0
        · split
          · obtain ⟨e1, _⟩ := partitionEqual_spec less s.1 p1 p2
            exact (m0.trans (e1.mono (Nat.zero_le _) (Nat.le_refl _))).trans (pdq_moves less n _ _ _ _ _ _)
          · obtain ⟨e1, e2, e3, _⟩ := partition_spec less s.1 p1 p2
            have m1 := m0.trans (e1.mono (Nat.zero_le _) (Nat.le_refl _))
            dsimp only
            split
            · exact (m1.trans ((pdq_moves less n _ _ _ _ _ _).mono (Nat.le_refl _) (by omega))).trans (pdq_moves less n _ _ _ _ _ _)
            · exact (m1.trans (pdq_moves less n _ _ _ _ _ _)).trans ((pdq_moves less n _ _ _ _ _ _).mono (Nat.le_refl _) (by omega))

/-! ### Sorted slices stay as they are -/

theorem insertLoop_fixed (less : α → α → Bool) (a : Nat) (f : Nat → α) : ∀ (n i : Nat), a < i →
    (∀ k, a < k → k < i + n → less (f k) (f (k - 1)) = false) → insertLoop less a n i f = f
  | 0, _, _, _ => rfl
  | n + 1, i, hi, h => by
    have e : sink less a i f = f := by
      obtain ⟨j, rfl⟩ : ∃ j, i = j + 1 := ⟨i - 1, by omega⟩
      unfold sink
      rw [if_neg]
      rintro ⟨_, h'⟩
      have := h (j + 1) hi (by omega)
      rw [Nat.add_sub_cancel] at this
      rw [this] at h'
      cases h'
    unfold insertLoop
    rw [e]
    exact insertLoop_fixed less a f n (i + 1) (by omega) fun k h1 h2 => h k h1 (by omega)

theorem ascend_fixed (less : α → α → Bool) (f : Nat → α) (b : Nat) : ∀ (n i : Nat), i ≤ b → b - i ≤ n →
    (∀ k, i ≤ k → k < b → less (f k) (f (k - 1)) = false) → ascend less f b n i = b
  | 0, i, h1, h2, _ => by unfold ascend; omega
  | n + 1, i, h1, h2, h => by
    unfold ascend
    by_cases hi : i < b
    · rw [if_pos ⟨hi, h i (Nat.le_refl _) hi⟩]
      exact ascend_fixed less f b n (i + 1) (by omega) (by omega) fun k h3 h4 => h k (by omega) h4
    · rw [if_neg (by omega)]; omega

theorem median_fixed (less : α → α → Bool) (f : Nat → α) {a b c s : Nat} (h1 : less (f b) (f a) = false) (h2 : less (f c) (f b) = false) :
    median less f a b c s = (b, s) := by
  have o1 : order2 less f a b s = (a, b, s) := by unfold order2; rw [h1]; rfl
  have o2 : order2 less f b c s = (b, c, s) := by unfold order2; rw [h2]; rfl
  simp only [median, o1, o2]

theorem choosePivot_fixed (less : α → α → Bool) {a b : Nat} (f : Nat → α) (h : a < b)
    (hs : ∀ i j, a ≤ i → i < j → j < b → less (f j) (f i) = false) : (choosePivot less a b f).2 = 0 := by
  have e := Nat.div_mul_le_self (b - a) 4
  unfold choosePivot
  dsimp only
  split
  · have hd : 2 ≤ (b - a) / 4 := by omega
    have mf : ∀ x y z s, a ≤ x → x < y → y < z → z < b → median less f x y z s = (y, s) := fun x y z s h1 h2 h3 h4 =>
      median_fixed less f (hs x y h1 h2 (by omega)) (hs y z (by omega) h3 h4)
    split
    · rw [mf (a + (b - a) / 4 * 1 - 1) (a + (b - a) / 4 * 1) (a + (b - a) / 4 * 1 + 1) 0 (by omega) (by omega) (by omega) (by omega)]
      dsimp only
      rw [mf (a + (b - a) / 4 * 2 - 1) (a + (b - a) / 4 * 2) (a + (b - a) / 4 * 2 + 1) 0 (by omega) (by omega) (by omega) (by omega)]
      dsimp only
      rw [mf (a + (b - a) / 4 * 3 - 1) (a + (b - a) / 4 * 3) (a + (b - a) / 4 * 3 + 1) 0 (by omega) (by omega) (by omega) (by omega)]
      dsimp only
      rw [mf _ _ _ _ (by omega) (by omega) (by omega) (by omega)]
    · rw [mf _ _ _ _ (by omega) (by omega) (by omega) (by omega)]
  · rfl

theorem pdq_fixed (less : α → α → Bool) (n limit : Nat) (hl : 0 < limit) {a b : Nat} (f : Nat → α)
    (hs : ∀ i j, a ≤ i → i < j → j < b → less (f j) (f i) = false) : pdq less (n + 1) limit true true a b f = f := by
  rw [pdq_succ]
  by_cases h1 : b - a ≤ 12
  · rw [if_pos h1]
    unfold insertion
    by_cases hab : a + 1 ≤ b
    · exact insertLoop_fixed less a f _ _ (by omega) fun k h2 h3 => hs (k - 1) k (by omega) (by omega) (by omega)
    · rw [show b - (a + 1) = 0 by omega]; rfl
  · rw [if_neg h1, if_neg (by omega)]
    have hp : prepare less a b f = (f, (choosePivot less a b f).1, true) := by
      unfold prepare
      have := choosePivot_fixed less f (a := a) (b := b) (by omega) hs
      dsimp only
      rw [this]
      rfl
    have hi : partialInsertion less a b f = (f, true) := by
      unfold partialInsertion partialLoop
      dsimp only
      rw [ascend_fixed less f b _ _ (by omega) (Nat.le_refl _) fun k h2 h3 => hs (k - 1) k (by omega) (by omega) h3]
      exact if_pos rfl
    have ha : attempt less true true a b f = (f, (choosePivot less a b f).1, true) := by
      unfold attempt
      simp only [if_true, hp, Bool.and_self, hi]
    rw [ha]
    exact if_pos rfl

end Osv.Pdq
