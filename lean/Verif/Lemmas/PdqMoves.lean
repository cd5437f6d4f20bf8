import Verif.Go.PdqSort
/-! # What swaps keep -/
namespace Osv.Pdq

variable {α : Type}

/-- The second slice comes from the first by swaps of indices in `[a, b)`. -/
inductive Moves (a b : Nat) (f : Nat → α) : (Nat → α) → Prop
  | refl : Moves a b f f
  | swap {g : Nat → α} {i j : Nat} : Moves a b f g → a ≤ i → i < b → a ≤ j → j < b → Moves a b f (swap g i j)

theorem Moves.trans {a b : Nat} {f g h : Nat → α} (h1 : Moves a b f g) (h2 : Moves a b g h) : Moves a b f h := by
  induction h2 with
  | refl => exact h1
  | swap _ p q r s ih => exact ih.swap p q r s

theorem Moves.mono {a b a' b' : Nat} {f g : Nat → α} (h : Moves a b f g) (ha : a' ≤ a) (hb : b ≤ b') : Moves a' b' f g := by
  induction h with
  | refl => exact .refl
  | swap _ p q r s ih => exact ih.swap (by omega) (by omega) (by omega) (by omega)

theorem Moves.one {a b i j : Nat} {f : Nat → α} (h1 : a ≤ i) (h2 : i < b) (h3 : a ≤ j) (h4 : j < b) : Moves a b f (Pdq.swap f i j) :=
  Moves.refl.swap h1 h2 h3 h4

theorem Moves.out {a b : Nat} {f g : Nat → α} (h : Moves a b f g) {k : Nat} (hk : k < a ∨ b ≤ k) : g k = f k := by
  induction h with
  | refl => rfl
  | @swap g i j _ p q r s ih =>
    rw [← ih]
    unfold Pdq.swap
    rw [if_neg (by omega), if_neg (by omega)]

theorem swap_left (f : Nat → α) (i j : Nat) : swap f i j i = f j := if_pos rfl

theorem swap_right (f : Nat → α) (i j : Nat) : swap f i j j = f i := by
  unfold swap
  split
  · rename_i e; rw [e]
  · exact if_pos rfl

theorem swap_other (f : Nat → α) {i j k : Nat} (h1 : k ≠ i) (h2 : k ≠ j) : swap f i j k = f k := by
  unfold swap
  rw [if_neg h1, if_neg h2]

/-- Where the element comes from. -/
def source (i j k : Nat) : Nat := if k = i then j else if k = j then i else k

theorem swap_source (f : Nat → α) (i j k : Nat) : swap f i j k = f (source i j k) := by
  unfold swap source
  split
  · rfl
  · split <;> rfl

theorem source_inj {i j k l : Nat} (h : source i j k = source i j l) : k = l := by
  unfold source at h
  repeat' split at h
  all_goals omega

theorem source_in {a b i j k : Nat} (h1 : a ≤ i) (h2 : i < b) (h3 : a ≤ j) (h4 : j < b) (h5 : a ≤ k) (h6 : k < b) :
    a ≤ source i j k ∧ source i j k < b := by
  unfold source
  repeat' split
  all_goals omega

theorem Moves.into {a b : Nat} {f g : Nat → α} (h : Moves a b f g) {k : Nat} (h1 : a ≤ k) (h2 : k < b) :
    ∃ l, a ≤ l ∧ l < b ∧ g k = f l := by
  induction h generalizing k with
  | refl => exact ⟨k, h1, h2, rfl⟩
  | @swap g i j _ p q r s ih =>
    rw [swap_source]
    obtain ⟨h3, h4⟩ := source_in p q r s h1 h2
    exact ih h3 h4

/-- What holds for the elements of a range holds for them after they are moved in it. -/
theorem Moves.all {a b : Nat} {f g : Nat → α} (h : Moves a b f g) {P : α → Prop} (hp : ∀ k, a ≤ k → k < b → P (f k)) :
    ∀ k, a ≤ k → k < b → P (g k) := by
  intro k h1 h2
  obtain ⟨l, h3, h4, e⟩ := h.into h1 h2
  rw [e]
  exact hp l h3 h4

/-- The comparison is an order on elements at different indices. -/
def Agree (less lt : α → α → Bool) (n : Nat) (f : Nat → α) : Prop :=
  ∀ i j, i < n → j < n → i ≠ j → less (f i) (f j) = lt (f i) (f j)

theorem Moves.agree {less lt : α → α → Bool} {a b n : Nat} {f g : Nat → α} (h : Moves a b f g) (hb : b ≤ n) (hf : Agree less lt n f) :
    Agree less lt n g := by
  induction h with
  | refl => exact hf
  | @swap g i j _ p q r s ih =>
    intro k l hk hl hne
    rw [swap_source, swap_source]
    have hin : ∀ m, m < n → source i j m < n := fun m hm =>
      (source_in (a := 0) (b := n) (Nat.zero_le _) (by omega) (Nat.zero_le _) (by omega) (Nat.zero_le _) hm).2
    exact ih _ _ (hin k hk) (hin l hl) fun e => hne (source_inj e)

theorem map_source_perm {i j n : Nat} (hi : i < n) (hj : j < n) : ((List.range n).map (source i j)).Perm (List.range n) := by
  refine (List.perm_ext_iff_of_nodup ?_ List.nodup_range).2 fun k => ?_
  · refine List.Pairwise.map _ (fun a b hab e => hab (source_inj e)) List.nodup_range
  · rw [List.mem_map, List.mem_range]
    constructor
    · rintro ⟨l, hl, rfl⟩
      exact (source_in (a := 0) (b := n) (Nat.zero_le _) hi (Nat.zero_le _) hj (Nat.zero_le _) (List.mem_range.1 hl)).2
    · intro hk
      refine ⟨source i j k, List.mem_range.2
        (source_in (a := 0) (b := n) (Nat.zero_le _) hi (Nat.zero_le _) hj (Nat.zero_le _) hk).2, ?_⟩
      unfold source
      repeat' split
      all_goals omega

theorem Moves.perm {a b n : Nat} {f g : Nat → α} (h : Moves a b f g) (hb : b ≤ n) : ((List.range n).map g).Perm ((List.range n).map f) := by
  induction h with
  | refl => exact .refl _
  | @swap g i j _ p q r s ih =>
    have e : (List.range n).map (Pdq.swap g i j) = ((List.range n).map (source i j)).map g := by
      rw [List.map_map]
      exact List.map_congr_left fun k _ => swap_source g i j k
    rw [e]
    exact ((map_source_perm (by omega) (by omega)).map g).trans ih

/-! ### All parts of the algorithm only swap -/

theorem sink_moves (less : α → α → Bool) (a : Nat) : ∀ (j : Nat) (f : Nat → α), Moves a (j + 1) f (sink less a j f)
  | 0, _ => .refl
  | j + 1, f => by
    unfold sink
    split
    · rename_i h
      exact (Moves.one (by omega) (by omega) (by omega) (by omega)).trans ((sink_moves less a j _).mono (by omega) (by omega))
    · exact .refl

theorem insertLoop_moves (less : α → α → Bool) (a : Nat) : ∀ (n i : Nat) (f : Nat → α), Moves a (i + n) f (insertLoop less a n i f)
  | 0, _, _ => .refl
  | n + 1, i, f => by
    unfold insertLoop
    exact ((sink_moves less a i f).mono (Nat.le_refl _) (by omega)).trans
      ((insertLoop_moves less a n (i + 1) _).mono (Nat.le_refl _) (by omega))

theorem insertion_moves (less : α → α → Bool) {a b : Nat} (f : Nat → α) : Moves a b f (insertion less a b f) := by
  unfold insertion
  by_cases h : a + 1 ≤ b
  · exact (insertLoop_moves less a _ _ f).mono (Nat.le_refl _) (by omega)
  · rw [show b - (a + 1) = 0 by omega]
    exact .refl

theorem bigChild_lt (less : α → α → Bool) {hi root : Nat} (first : Nat) (f : Nat → α) (h : ¬ hi ≤ 2 * root + 1) :
    bigChild less hi first root f < hi ∧ (bigChild less hi first root f = 2 * root + 1 ∨ bigChild less hi first root f = 2 * root + 2) := by
  unfold bigChild
  split <;> omega

theorem siftDown_moves (less : α → α → Bool) (hi first : Nat) : ∀ (n root : Nat) (f : Nat → α),
    Moves first (first + hi) f (siftDown less hi first n root f)
  | 0, _, _ => .refl
  | n + 1, root, f => by
    unfold siftDown
    split
    · exact .refl
    · rename_i h
      have hc := bigChild_lt less first f h
      dsimp only
      split
      · exact (Moves.one (by omega) (by omega) (by omega) (by omega)).trans (siftDown_moves less hi first n _ _)
      · exact .refl

theorem heapBuild_moves (less : α → α → Bool) (hi first : Nat) : ∀ (n : Nat) (f : Nat → α),
    Moves first (first + hi) f (heapBuild less hi first n f)
  | 0, _ => .refl
  | n + 1, f => by
    unfold heapBuild
    exact (siftDown_moves less hi first _ _ f).trans (heapBuild_moves less hi first n _)

theorem heapPop_moves (less : α → α → Bool) (first : Nat) : ∀ (n : Nat) (f : Nat → α), Moves first (first + n) f (heapPop less first n f)
  | 0, _ => .refl
  | n + 1, f => by
    unfold heapPop
    exact ((Moves.one (by omega) (by omega) (by omega) (by omega)).trans
      ((siftDown_moves less n first _ _ _).mono (Nat.le_refl _) (by omega))).trans
      ((heapPop_moves less first n _).mono (Nat.le_refl _) (by omega))

theorem heapSort_moves (less : α → α → Bool) {a b : Nat} (hab : a ≤ b) (f : Nat → α) : Moves a b f (heapSort less a b f) := by
  have e : a + (b - a) = b := by omega
  have h1 := heapBuild_moves less (b - a) a ((b - a - 1) / 2 + 1) f
  have h2 := heapPop_moves less a (b - a) (heapBuild less (b - a) a ((b - a - 1) / 2 + 1) f)
  rw [e] at h1 h2
  exact h1.trans h2

theorem up_bounds (q : α → Bool) (f : Nat → α) : ∀ (n i j : Nat), i ≤ j + 1 → i ≤ up q f n i j ∧ up q f n i j ≤ j + 1
  | 0, i, j, h => ⟨Nat.le_refl _, h⟩
  | n + 1, i, j, h => by
    unfold up
    split
    · rename_i hc
      have := up_bounds q f n (i + 1) j (by omega)
      omega
    · omega

theorem down_bounds (q : α → Bool) (f : Nat → α) : ∀ (n i j : Nat), 0 < i → i ≤ j + 1 → i ≤ down q f n i j + 1 ∧ down q f n i j ≤ j
  | 0, i, j, _, h => ⟨h, Nat.le_refl _⟩
  | n + 1, i, j, h0, h => by
    unfold down
    split
    · rename_i hc
      have := down_bounds q f n i (j - 1) h0 (by omega)
      omega
    · omega

theorem up_all (q : α → Bool) (f : Nat → α) : ∀ (n i j : Nat), j + 1 - i ≤ n →
    (∀ k, i ≤ k → k < up q f n i j → q (f k) = true) ∧ (up q f n i j ≤ j → q (f (up q f n i j)) = false)
  | 0, i, j, h => ⟨fun k h1 h2 => by simp [up] at h2; omega, fun h' => by simp [up] at h'; omega⟩
  | n + 1, i, j, h => by
    unfold up
    by_cases hc : i ≤ j ∧ q (f i) = true
    · rw [if_pos hc]
      obtain ⟨h1, h2⟩ := up_all q f n (i + 1) j (by omega)
      refine ⟨fun k hk hk' => ?_, h2⟩
      by_cases e : k = i
      · rw [e]; exact hc.2
      · exact h1 k (by omega) hk'
    · rw [if_neg hc]
      refine ⟨fun k h1 h2 => by omega, fun h' => ?_⟩
      cases e : q (f i) with
      | false => rfl
      | true => exact absurd ⟨h', e⟩ hc

theorem down_all (q : α → Bool) (f : Nat → α) : ∀ (n i j : Nat), 0 < i → j + 1 - i ≤ n →
    (∀ k, down q f n i j < k → k ≤ j → q (f k) = false) ∧ (i ≤ down q f n i j → q (f (down q f n i j)) = true)
  | 0, i, j, _, h => ⟨fun k h1 h2 => by simp [down] at h1; omega, fun h' => by simp [down] at h'; omega⟩
  | n + 1, i, j, h0, h => by
    unfold down
    by_cases hc : i ≤ j ∧ q (f j) = false
    · rw [if_pos hc]
      obtain ⟨h1, h2⟩ := down_all q f n i (j - 1) h0 (by omega)
      refine ⟨fun k hk hk' => ?_, h2⟩
      by_cases e : k = j
      · rw [e]; exact hc.2
      · exact h1 k hk (by omega)
    · rw [if_neg hc]
      refine ⟨fun k h1 h2 => by omega, fun h' => ?_⟩
      cases e : q (f j) with
      | true => rfl
      | false => exact absurd ⟨h', e⟩ hc

/-- Elements with `q` are at the front afterwards. -/
theorem partLoop_spec (q : α → Bool) : ∀ (n i j : Nat) (f : Nat → α), 0 < i → i ≤ j + 1 → j + 1 - i ≤ n →
    Moves i (j + 1) f (partLoop q n i j f).1 ∧ i ≤ (partLoop q n i j f).2.1 ∧ (partLoop q n i j f).2.1 ≤ j + 1 ∧
    (partLoop q n i j f).2.1 = (partLoop q n i j f).2.2 + 1 ∧
    (∀ k, i ≤ k → k < (partLoop q n i j f).2.1 → q ((partLoop q n i j f).1 k) = true) ∧
    ∀ k, (partLoop q n i j f).2.1 ≤ k → k ≤ j → q ((partLoop q n i j f).1 k) = false
  | 0, i, j, f, h0, h1, h2 => by
    refine ⟨.refl, Nat.le_refl _, h1, ?_, ?_, ?_⟩ <;> simp only [partLoop]
    · omega
    · intro k h3 h4; omega
    · intro k h3 h4; omega
  | n + 1, i, j, f, h0, h1, h2 => by
    unfold partLoop
    dsimp only
    have ub := up_bounds q f (j + 1 - i) i j h1
    obtain ⟨u1, u2⟩ := up_all q f (j + 1 - i) i j (Nat.le_refl _)
    revert ub u1 u2
    generalize up q f (j + 1 - i) i j = u
    intro ub u1 u2
    have db := down_bounds q f (j + 1 - u) u j (by omega) ub.2
    obtain ⟨d1, d2⟩ := down_all q f (j + 1 - u) u j (by omega) (Nat.le_refl _)
    revert db d1 d2
    generalize down q f (j + 1 - u) u j = d
    intro db d1 d2
    split
    · rename_i hlt
      exact ⟨.refl, ub.1, ub.2, by dsimp only; omega, u1, fun k h3 h4 => d1 k (by dsimp only at h3; omega) h4⟩
    · rename_i hge
      have hne : u ≠ d := by
        intro e
        have := u2 (by omega)
        rw [e, d2 (by omega)] at this
        cases this
      obtain ⟨r1, r2, r3, r4, r5, r6⟩ := partLoop_spec q n (u + 1) (d - 1) (swap f u d) (by omega) (by omega) (by omega)
      have m1 : Moves i (j + 1) f (swap f u d) := Moves.one (by omega) (by omega) (by omega) (by omega)
      refine ⟨m1.trans (r1.mono (by omega) (by omega)), by omega, by omega, r4, ?_, ?_⟩
      · intro k h3 h4
        by_cases hk : u + 1 ≤ k
        · exact r5 k hk h4
        · rw [r1.out (by omega)]
          by_cases e : k = u
          · rw [e, swap_left]; exact d2 (by omega)
          · rw [swap_other f e (by omega)]; exact u1 k h3 (by omega)
      · intro k h3 h4
        by_cases hk : k ≤ d - 1
        · exact r6 k h3 hk
        · rw [r1.out (by omega)]
          by_cases e : k = d
          · rw [e, swap_right]; exact u2 (by omega)
          · rw [swap_other f (by omega) e]; exact d1 k (by omega) h4

theorem ascend_bounds (less : α → α → Bool) (f : Nat → α) (b : Nat) : ∀ (n i : Nat), i ≤ b →
    i ≤ ascend less f b n i ∧ ascend less f b n i ≤ b
  | 0, i, h => ⟨Nat.le_refl _, h⟩
  | n + 1, i, h => by
    unfold ascend
    split
    · have := ascend_bounds less f b n (i + 1) (by omega)
      omega
    · omega

theorem ascend_all (less : α → α → Bool) (f : Nat → α) (b : Nat) : ∀ (n i : Nat), ∀ k, i ≤ k → k < ascend less f b n i →
    less (f k) (f (k - 1)) = false
  | 0, i, k, h1, h2 => by simp [ascend] at h2; omega
  | n + 1, i, k, h1, h2 => by
    unfold ascend at h2
    split at h2
    · rename_i hc
      by_cases e : k = i
      · rw [e]; exact hc.2
      · exact ascend_all less f b n (i + 1) k (by omega) h2
    · omega

theorem rise_moves (less : α → α → Bool) : ∀ (n j : Nat) (f : Nat → α), 0 < j → Moves (j - 1) (j + n) f (rise less n j f)
  | 0, _, _, _ => .refl
  | n + 1, j, f, h => by
    unfold rise
    split
    · exact (Moves.one (by omega) (by omega) (by omega) (by omega)).trans ((rise_moves less n (j + 1) _ (by omega)).mono (by omega) (by omega))
    · exact .refl

theorem partialLoop_moves (less : α → α → Bool) (a b : Nat) : ∀ (n i : Nat) (f : Nat → α), 0 < i → i ≤ b →
    Moves 0 b f (partialLoop less a b n i f).1
  | 0, _, _, _, _ => .refl
  | n + 1, i, f, h0, hi => by
    unfold partialLoop
    dsimp only
    have hb := ascend_bounds less f b (b - i) i hi
    revert hb
    generalize ascend less f b (b - i) i = k
    intro hb
    split
    · exact .refl
    · split
      · exact .refl
      · rename_i hk _
        have m1 : Moves 0 b f (swap f k (k - 1)) := Moves.one (by omega) (by omega) (by omega) (by omega)
        refine (m1.trans ?_).trans (partialLoop_moves less a b n k _ (by omega) hb.2)
        generalize swap f k (k - 1) = g
        have m2 : Moves 0 b g (if 2 ≤ k - a then sink less 0 (k - 1) g else g) := by
          split
          · exact (sink_moves less 0 (k - 1) g).mono (Nat.le_refl _) (by omega)
          · exact .refl
        refine m2.trans ?_
        generalize (if 2 ≤ k - a then sink less 0 (k - 1) g else g) = h
        split
        · exact (rise_moves less _ (k + 1) h (by omega)).mono (by omega) (by omega)
        · exact .refl

theorem scatter_lt {length : Nat} (h : 0 < length) (r : UInt64) : scatter length r < length := by
  unfold scatter
  have h1 : r.toNat % 2 ^ (Nat.log2 length + 1) < 2 ^ (Nat.log2 length + 1) := Nat.mod_lt _ (Nat.two_pow_pos _)
  have h2 : 2 ^ Nat.log2 length ≤ length := Nat.log2_self_le (by omega)
  rw [Nat.pow_succ] at h1
  dsimp only
  split <;> omega

theorem breakPatterns_moves {a b : Nat} (f : Nat → α) : Moves a b f (breakPatterns a b f) := by
  unfold breakPatterns
  dsimp only
  split
  · rename_i h
    have hs := fun r => scatter_lt (length := b - a) (by omega) r
    have e := Nat.div_mul_le_self (b - a) 4
    refine ((Moves.refl.swap ?_ ?_ ?_ ?_).swap ?_ ?_ ?_ ?_).swap ?_ ?_ ?_ ?_
    all_goals first
      | omega
      | (have := hs (next (UInt64.ofNat (b - a))); omega)
      | (have := hs (next (next (UInt64.ofNat (b - a)))); omega)
      | (have := hs (next (next (next (UInt64.ofNat (b - a))))); omega)
  · exact .refl

theorem order2_in (less : α → α → Bool) (f : Nat → α) {lo hi a b : Nat} (s : Nat) (h1 : lo ≤ a ∧ a < hi) (h2 : lo ≤ b ∧ b < hi) :
    (lo ≤ (order2 less f a b s).1 ∧ (order2 less f a b s).1 < hi) ∧ lo ≤ (order2 less f a b s).2.1 ∧ (order2 less f a b s).2.1 < hi := by
  unfold order2
  split
  · exact ⟨h2, h1⟩
  · exact ⟨h1, h2⟩

theorem median_in (less : α → α → Bool) (f : Nat → α) {lo hi a b c : Nat} (s : Nat) (h1 : lo ≤ a ∧ a < hi) (h2 : lo ≤ b ∧ b < hi)
    (h3 : lo ≤ c ∧ c < hi) : lo ≤ (median less f a b c s).1 ∧ (median less f a b c s).1 < hi := by
  unfold median
  dsimp only
  have e1 := order2_in less f s h1 h2
  exact (order2_in less f _ e1.1 (order2_in less f _ e1.2 h3).1).2

theorem choosePivot_in (less : α → α → Bool) {a b : Nat} (f : Nat → α) (h : a < b) :
    a ≤ (choosePivot less a b f).1 ∧ (choosePivot less a b f).1 < b := by
  have e := Nat.div_mul_le_self (b - a) 4
  unfold choosePivot
  dsimp only
  split
  · have hd : 1 ≤ (b - a) / 4 := by omega
    split
    · refine median_in less f _ (median_in less f _ ?_ ?_ ?_) (median_in less f _ ?_ ?_ ?_) (median_in less f _ ?_ ?_ ?_)
      all_goals omega
    · refine median_in less f _ ?_ ?_ ?_
      all_goals omega
  · dsimp only
    omega

theorem reverseLoop_moves : ∀ (n i j : Nat) (f : Nat → α), Moves i (j + 1) f (reverseLoop n i j f)
  | 0, _, _, _ => .refl
  | n + 1, i, j, f => by
    unfold reverseLoop
    split
    · exact (Moves.one (by omega) (by omega) (by omega) (by omega)).trans ((reverseLoop_moves n (i + 1) (j - 1) _).mono (by omega) (by omega))
    · exact .refl

theorem prepare_spec (less : α → α → Bool) {a b : Nat} (f : Nat → α) (h : a < b) :
    Moves a b f (prepare less a b f).1 ∧ a ≤ (prepare less a b f).2.1 ∧ (prepare less a b f).2.1 < b := by
  have hc := choosePivot_in less f h
  unfold prepare
  dsimp only
  split
  · exact ⟨(reverseLoop_moves _ _ _ _).mono (Nat.le_refl _) (by omega), by dsimp only; omega, by dsimp only; omega⟩
  · exact ⟨.refl, hc⟩

end Osv.Pdq
