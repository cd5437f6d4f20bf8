import Verif.Lemmas.PdqPart
/-! # The slice is sorted -/
namespace Osv.Pdq

variable {α : Type}

def Sorted (lt : α → α → Bool) (f : Nat → α) (a b : Nat) : Prop := ∀ i j, a ≤ i → i < j → j < b → lt (f j) (f i) = false

/-- Nothing in the range is below the element in front of it. -/
def Lower (lt : α → α → Bool) (f : Nat → α) (a b : Nat) : Prop := 0 < a → ∀ k, a ≤ k → k < b → lt (f k) (f (a - 1)) = false

section
variable {less lt : α → α → Bool}

theorem asymm (hw : StrictWeak lt) {x y : α} (h : lt x y = true) : lt y x = false := by
  cases e : lt y x with
  | false => rfl
  | true => rw [← hw.irrefl x]; exact (hw.trans x y x h e).symm

theorem below (hw : StrictWeak lt) {x y z : α} (h1 : lt x y = false) (h2 : lt y z = false) : lt x z = false := by
  cases e : lt x z with
  | false => rfl
  | true =>
    rcases hw.cotrans x y z e with h | h
    · rw [h] at h1; cases h1
    · rw [h] at h2; cases h2

theorem Moves.lower {a b : Nat} {f g : Nat → α} (h : Moves a b f g) (hl : Lower lt f a b) : Lower lt g a b := by
  intro h0
  rw [h.out (Or.inl (by omega))]
  exact h.all (P := fun x => lt x (f (a - 1)) = false) (hl h0)

theorem sink_sorted (hw : StrictWeak lt) {n a e : Nat} (he : e ≤ n) : ∀ (j : Nat) (f : Nat → α), j < e → a ≤ j → Agree less lt n f →
    (∀ p q, a ≤ p → p < q → q < e → q ≠ j → lt (f q) (f p) = false) → Sorted lt (sink less a j f) a e
  | 0, f, _, _, _, h => fun p q h1 h2 h3 => h p q h1 h2 h3 (by omega)
  | j + 1, f, hj, ha, hA, h => by
    unfold sink
    by_cases hc : a < j + 1 ∧ less (f (j + 1)) (f j) = true
    · rw [if_pos hc]
      have hlt : lt (f (j + 1)) (f j) = true := by rw [← hA (j + 1) j (by omega) (by omega) (by omega)]; exact hc.2
      have hm : Moves a e f (swap f (j + 1) j) := Moves.one (by omega) (by omega) (by omega) (by omega)
      refine sink_sorted hw he j _ (by omega) (by omega) (hm.agree he hA) fun p q h1 h2 h3 h4 => ?_
      by_cases e1 : q = j + 1
      · rw [e1, swap_left]
        by_cases e2 : p = j
        · rw [e2, swap_right]; exact asymm hw hlt
        · rw [swap_other f (by omega) e2]; exact h p j h1 (by omega) (by omega) (by omega)
      · rw [swap_other f e1 h4]
        by_cases e2 : p = j + 1
        · rw [e2, swap_left]; exact h j q (by omega) (by omega) h3 e1
        · by_cases e3 : p = j
          · rw [e3, swap_right]; exact h (j + 1) q (by omega) (by omega) h3 e1
          · rw [swap_other f e2 e3]; exact h p q h1 h2 h3 e1
    · rw [if_neg hc]
      intro p q h1 h2 h3
      by_cases e1 : q = j + 1
      · subst e1
        have hlt : lt (f (j + 1)) (f j) = false := by
          rw [← hA (j + 1) j (by omega) (by omega) (by omega)]
          cases e : less (f (j + 1)) (f j) with
          | false => rfl
          | true => exact absurd ⟨by omega, e⟩ hc
        by_cases e2 : p = j
        · rw [e2]; exact hlt
        · exact below hw hlt (h p j h1 (by omega) (by omega) (by omega))
      · exact h p q h1 h2 h3 e1

theorem insertLoop_sorted (hw : StrictWeak lt) {n a : Nat} : ∀ (m i : Nat) (f : Nat → α), a < i → i + m ≤ n → Agree less lt n f →
    Sorted lt f a i → Sorted lt (insertLoop less a m i f) a (i + m)
  | 0, _, _, _, _, _, h => h
  | m + 1, i, f, hi, hn, hA, h => by
    unfold insertLoop
    have h1 : Sorted lt (sink less a i f) a (i + 1) :=
      sink_sorted hw (n := n) (by omega) i f (by omega) (by omega) hA fun p q h1 h2 h3 h4 => h p q h1 h2 (by omega)
    have h2 := insertLoop_sorted hw m (i + 1) _ (by omega) (by omega) ((sink_moves less a i f).agree (by omega) hA) h1
    rwa [show i + 1 + m = i + (m + 1) by omega] at h2

theorem insertion_sorted (hw : StrictWeak lt) {n a b : Nat} (hb : b ≤ n) {f : Nat → α} (hA : Agree less lt n f) :
    Sorted lt (insertion less a b f) a b := by
  by_cases h : a + 1 ≤ b
  · have := insertLoop_sorted hw (n := n) (a := a) (b - (a + 1)) (a + 1) f (by omega) (by omega) hA (fun i j h1 h2 h3 => by omega)
    rwa [show a + 1 + (b - (a + 1)) = b by omega] at this
  · intro i j h1 h2 h3; omega

/-! ### Heaps -/

def Child (r c : Nat) : Prop := c = 2 * r + 1 ∨ c = 2 * r + 2

def HeapFrom (lt : α → α → Bool) (f : Nat → α) (first lo hi : Nat) : Prop :=
  ∀ r c, lo ≤ r → Child r c → c < hi → lt (f (first + r)) (f (first + c)) = false

theorem bigChild_max (hw : StrictWeak lt) {n hi first root : Nat} (hn : first + hi ≤ n) {f : Nat → α} (hA : Agree less lt n f)
    (c : Nat) (hc : Child root c) (hlt : c < hi) :
    lt (f (first + bigChild less hi first root f)) (f (first + c)) = false := by
  unfold bigChild
  by_cases hb : 2 * root + 2 < hi ∧ less (f (first + (2 * root + 1))) (f (first + (2 * root + 2))) = true
  · rw [if_pos hb]
    have e := hA (first + (2 * root + 1)) (first + (2 * root + 2)) (by omega) (by omega) (by omega)
    rw [e] at hb
    rcases hc with rfl | rfl
    · exact asymm hw hb.2
    · exact hw.irrefl _
  · rw [if_neg hb]
    rcases hc with rfl | rfl
    · exact hw.irrefl _
    · have e := hA (first + (2 * root + 1)) (first + (2 * root + 2)) (by omega) (by omega) (by omega)
      rw [← e]
      cases e' : less (f (first + (2 * root + 1))) (f (first + (2 * root + 2))) with
      | false => rfl
      | true => exact absurd ⟨hlt, e'⟩ hb

theorem siftDown_heap (hw : StrictWeak lt) {n hi first lo : Nat} (hn : first + hi ≤ n) : ∀ (m root : Nat) (f : Nat → α), hi ≤ m + root →
    lo ≤ root → Agree less lt n f →
    (∀ r c, lo ≤ r → r ≠ root → Child r c → c < hi → lt (f (first + r)) (f (first + c)) = false) →
    (∀ r c, lo ≤ r → Child r root → Child root c → c < hi → lt (f (first + r)) (f (first + c)) = false) →
    HeapFrom lt (siftDown less hi first m root f) first lo hi
  | 0, root, f, hm, _, _, h1, _ => by
    intro r c h3 h4 h5
    refine h1 r c h3 ?_ h4 h5
    unfold Child at h4
    omega
  | m + 1, root, f, hm, hlo, hA, h1, h2 => by
    unfold siftDown
    by_cases hc : hi ≤ 2 * root + 1
    · rw [if_pos hc]
      intro r c h3 h4 h5
      refine h1 r c h3 ?_ h4 h5
      unfold Child at h4
      omega
    · rw [if_neg hc]
      dsimp only
      have hb := bigChild_lt less first f hc
      have hmax := bigChild_max (root := root) hw hn hA
      revert hb hmax
      generalize bigChild less hi first root f = child
      intro hb hmax
      have e := hA (first + root) (first + child) (by omega) (by omega) (by omega)
      by_cases hl : less (f (first + root)) (f (first + child)) = true
      · rw [if_pos hl]
        rw [e] at hl
        have hmv : Moves first (first + hi) f (swap f (first + root) (first + child)) :=
          Moves.one (by omega) (by omega) (by omega) (by omega)
        refine siftDown_heap hw hn m child _ (by omega) (by omega) (hmv.agree hn hA) ?_ ?_
        · intro r c h3 h4 h5 h6
          unfold Child at h5
          by_cases er : r = root
          · rw [er, swap_left]
            by_cases ec : c = child
            · rw [ec, swap_right]; exact asymm hw hl
            · rw [swap_other f (by omega) (by omega)]
              exact hmax c (by unfold Child; omega) h6
          · rw [swap_other f (i := first + root) (j := first + child) (k := first + r) (by omega) (by omega)]
            by_cases ec : c = root
            · rw [ec, swap_left]
              exact h2 r child h3 (by unfold Child; omega) hb.2 hb.1
            · rw [swap_other f (by omega) (by omega)]
              exact h1 r c h3 er (by unfold Child; omega) h6
        · intro r c h3 h4 h5 h6
          unfold Child at h4 h5
          have er : r = root := by omega
          rw [er, swap_left, swap_other f (by omega) (by omega)]
          exact h1 child c (by omega) (by omega) h5 h6
      · rw [if_neg hl]
        have hl' : lt (f (first + root)) (f (first + child)) = false := by
          rw [← e]
          cases e' : less (f (first + root)) (f (first + child)) with
          | false => rfl
          | true => exact absurd e' hl
        intro r c h3 h4 h5
        by_cases er : r = root
        · subst er
          exact below hw hl' (hmax c h4 h5)
        · exact h1 r c h3 er h4 h5

theorem heapBuild_heap (hw : StrictWeak lt) {n hi first : Nat} (hn : first + hi ≤ n) : ∀ (m : Nat) (f : Nat → α), Agree less lt n f →
    HeapFrom lt f first m hi → HeapFrom lt (heapBuild less hi first m f) first 0 hi
  | 0, _, _, h => h
  | m + 1, f, hA, h => by
    unfold heapBuild
    refine heapBuild_heap hw hn m _ ((siftDown_moves less hi first hi m f).agree hn hA) ?_
    refine siftDown_heap hw hn hi m f (by omega) (Nat.le_refl _) hA ?_ ?_
    · intro r c h1 h2 h3 h4
      exact h r c (by omega) h3 h4
    · intro r c h1 h2
      unfold Child at h2
      omega

theorem heap_top (hw : StrictWeak lt) {hi first : Nat} {f : Nat → α} (h : HeapFrom lt f first 0 hi) : ∀ k, k < hi →
    lt (f first) (f (first + k)) = false := by
  intro k
  induction k using Nat.strongRecOn with
  | ind k ih =>
    intro hk
    by_cases e : k = 0
    · rw [e]; exact hw.irrefl _
    · have h1 := ih ((k - 1) / 2) (by omega) (by omega)
      exact below hw h1 (h ((k - 1) / 2) k (Nat.zero_le _) (by unfold Child; omega) hk)

theorem heapPop_sorted (hw : StrictWeak lt) {n first N : Nat} (hn : first + N ≤ n) : ∀ (m : Nat) (f : Nat → α), m ≤ N → Agree less lt n f →
    HeapFrom lt f first 0 m → Sorted lt f (first + m) (first + N) →
    (∀ i j, i < m → m ≤ j → j < N → lt (f (first + j)) (f (first + i)) = false) → Sorted lt (heapPop less first m f) first (first + N)
  | 0, _, _, _, _, h, _ => h
  | m + 1, f, hm, hA, hh, hs, hx => by
    unfold heapPop
    have mv : Moves first (first + (m + 1)) f (swap f first (first + m)) := Moves.one (by omega) (by omega) (by omega) (by omega)
    have mv2 := siftDown_moves less m first m 0 (swap f first (first + m))
    have hA1 := mv.agree (by omega) hA
    have hA2 := mv2.agree (by omega) hA1
    have hheap : HeapFrom lt (siftDown less m first m 0 (swap f first (first + m))) first 0 m := by
      refine siftDown_heap hw (by omega) m 0 _ (by omega) (Nat.le_refl _) hA1 ?_ ?_
      · intro r c _ h2 h3 h4
        have h3' := h3
        unfold Child at h3'
        rw [swap_other f (by omega) (by omega), swap_other f (by omega) (by omega)]
        exact hh r c (Nat.zero_le _) h3 (by omega)
      · intro r c _ h2
        unfold Child at h2
        omega
    have hlast : ∀ k, first + m < k → siftDown less m first m 0 (swap f first (first + m)) k = f k := by
      intro k hk
      rw [mv2.out (by omega), swap_other f (by omega) (by omega)]
    have hat : siftDown less m first m 0 (swap f first (first + m)) (first + m) = f first := by
      rw [mv2.out (by omega), swap_right]
    have hin : ∀ i, i < m → ∃ l, l < m + 1 ∧ siftDown less m first m 0 (swap f first (first + m)) (first + i) = f (first + l) := by
      intro i hi
      obtain ⟨l, h1, h2, h3⟩ := (((mv2.mono (Nat.le_refl _) (show first + m ≤ first + (m + 1) by omega))).into
        (k := first + i) (by omega) (by omega))
      obtain ⟨l', h1', h2', h3'⟩ := mv.into h1 h2
      exact ⟨l' - first, by omega, by rw [h3, h3', show first + (l' - first) = l' by omega]⟩
    refine heapPop_sorted hw hn m _ (by omega) hA2 hheap ?_ ?_
    · intro i j h1 h2 h3
      rw [hlast j (by omega)]
      by_cases e : i = first + m
      · rw [e, hat]
        have := hx 0 (j - first) (by omega) (by omega) (by omega)
        rwa [show first + (j - first) = j by omega] at this
      · rw [hlast i (by omega)]
        exact hs i j (by omega) h2 h3
    · intro i j h1 h2 h3
      obtain ⟨l, hl, e⟩ := hin i h1
      rw [e]
      by_cases ej : j = m
      · rw [ej, hat]; exact heap_top hw hh l hl
      · rw [hlast _ (by omega)]; exact hx l j hl (by omega) h3

theorem heapSort_sorted (hw : StrictWeak lt) {n a b : Nat} (hab : a ≤ b) (hb : b ≤ n) {f : Nat → α} (hA : Agree less lt n f) :
    Sorted lt (heapSort less a b f) a b := by
  have e : a + (b - a) = b := by omega
  have h1 : HeapFrom lt (heapBuild less (b - a) a ((b - a - 1) / 2 + 1) f) a 0 (b - a) := by
    refine heapBuild_heap hw (by omega) _ f hA fun r c h1 h2 h3 => ?_
    unfold Child at h2
    omega
  have hA1 := (heapBuild_moves less (b - a) a ((b - a - 1) / 2 + 1) f).agree (by omega) hA
  have := heapPop_sorted hw (N := b - a) (by omega) (b - a) _ (Nat.le_refl _) hA1 h1 (fun i j h1 h2 h3 => by omega) (fun i j h1 h2 h3 => by omega)
  rwa [e] at this

/-! ### Slices that are almost sorted -/

theorem sink_zero {a : Nat} (h0 : 0 < a) : ∀ (j : Nat) (f : Nat → α), a ≤ j → (∀ k, a ≤ k → k ≤ j → less (f k) (f (a - 1)) = false) →
    sink less 0 j f = sink less a j f
  | 0, _, h, _ => by omega
  | j + 1, f, ha, h => by
    unfold sink
    by_cases e : a = j + 1
    · subst e
      have := h (j + 1) (Nat.le_refl _) (Nat.le_refl _)
      rw [Nat.add_sub_cancel] at this
      rw [if_neg (by rw [this]; simp), if_neg (by omega)]
    · by_cases hc : less (f (j + 1)) (f j) = true
      · rw [if_pos ⟨by omega, hc⟩, if_pos ⟨by omega, hc⟩]
        refine sink_zero h0 j _ (by omega) fun k h1 h2 => ?_
        rw [swap_other f (k := a - 1) (by omega) (by omega)]
        by_cases ek : k = j
        · rw [ek, swap_right]; exact h (j + 1) (by omega) (by omega)
        · rw [swap_other f (by omega) ek]; exact h k h1 (by omega)
      · rw [if_neg fun h => hc h.2, if_neg fun h => hc h.2]

theorem sorted_step (hw : StrictWeak lt) {f : Nat → α} {a : Nat} : ∀ {i k : Nat}, a < i → i ≤ k → Sorted lt f a i →
    (∀ m, i ≤ m → m < k → lt (f m) (f (m - 1)) = false) → Sorted lt f a k := by
  intro i k hi hk hs h
  obtain ⟨d, rfl⟩ : ∃ d, k = i + d := ⟨k - i, by omega⟩
  clear hk
  induction d with
  | zero => exact hs
  | succ d ih =>
    have h1 := ih fun m h2 h3 => h m h2 (by omega)
    intro p q h2 h3 h4
    by_cases e : q = i + d
    · have h5 := h q (by omega) (by omega)
      by_cases ep : p = q - 1
      · rw [ep]; exact h5
      · exact below hw h5 (h1 p (q - 1) h2 (by omega) (by omega))
    · exact h1 p q h2 h3 (by omega)

theorem partialLoop_sorted (hw : StrictWeak lt) {n a b : Nat} (hb : b ≤ n) : ∀ (m i : Nat) (f : Nat → α), a < i → i ≤ b → Agree less lt n f →
    Lower lt f a b → Sorted lt f a i →
    Moves a b f (partialLoop less a b m i f).1 ∧ ((partialLoop less a b m i f).2 = true → Sorted lt (partialLoop less a b m i f).1 a b)
  | 0, _, _, _, _, _, _, _ => ⟨.refl, fun h => by cases h⟩
  | m + 1, i, f, hi, hib, hA, hl, hs => by
    unfold partialLoop
    dsimp only
    have hbd := ascend_bounds less f b (b - i) i hib
    have hall := ascend_all less f b (b - i) i
    revert hbd hall
    generalize ascend less f b (b - i) i = k
    intro hbd hall
    have hs' : Sorted lt f a k := sorted_step hw hi hbd.1 hs fun m h1 h2 => by
      rw [← hA m (m - 1) (by omega) (by omega) (by omega)]; exact hall m h1 h2
    split
    · rename_i e; subst e; exact ⟨.refl, fun _ => hs'⟩
    · split
      · exact ⟨.refl, fun h => by cases h⟩
      · rename_i hk _
        have m1 : Moves a b f (swap f k (k - 1)) := Moves.one (by omega) (by omega) (by omega) (by omega)
        have hs1 : ∀ p q, a ≤ p → p < q → q < k → q ≠ k - 1 → lt (swap f k (k - 1) q) (swap f k (k - 1) p) = false := by
          intro p q h1 h2 h3 h4
          rw [swap_other f (by omega) (by omega), swap_other f (by omega) (by omega)]
          exact hs' p q h1 h2 h3
        revert m1 hs1
        generalize swap f k (k - 1) = g
        intro m1 hs1
        have hA1 := m1.agree hb hA
        have hl1 := m1.lower hl
        have m2 : Moves a b g (if 2 ≤ k - a then sink less 0 (k - 1) g else g) ∧
            Sorted lt (if 2 ≤ k - a then sink less 0 (k - 1) g else g) a k := by
          split
          · have e : sink less 0 (k - 1) g = sink less a (k - 1) g := by
              by_cases h0 : 0 < a
              · refine sink_zero h0 (k - 1) g (by omega) fun x h1 h2 => ?_
                rw [hA1 x (a - 1) (by omega) (by omega) (by omega)]
                exact hl1 h0 x h1 (by omega)
              · rw [show a = 0 by omega]
            rw [e]
            exact ⟨(sink_moves less a (k - 1) g).mono (Nat.le_refl _) (by omega),
              sink_sorted hw (n := n) (by omega) (k - 1) g (by omega) (by omega) hA1 hs1⟩
          · exact ⟨.refl, fun p q h1 h2 h3 => by omega⟩
        revert m2
        generalize (if 2 ≤ k - a then sink less 0 (k - 1) g else g) = h
        rintro ⟨m2, hs2⟩
        have m3 : Moves k b h (if 2 ≤ b - k then rise less (b - (k + 1)) (k + 1) h else h) := by
          split
          · exact (rise_moves less _ (k + 1) h (by omega)).mono (by omega) (by omega)
          · exact .refl
        revert m3
        generalize (if 2 ≤ b - k then rise less (b - (k + 1)) (k + 1) h else h) = h'
        intro m3
        have hs3 : Sorted lt h' a k := by
          intro p q h1 h2 h3
          rw [m3.out (Or.inl h3), m3.out (Or.inl (by omega))]
          exact hs2 p q h1 h2 h3
        have mm := (m1.trans m2).trans (m3.mono (show a ≤ k by omega) (Nat.le_refl _))
        obtain ⟨r1, r2⟩ := partialLoop_sorted hw hb m k h' (by omega) hbd.2 (mm.agree hb hA) (mm.lower hl) hs3
        exact ⟨mm.trans r1, r2⟩

theorem attempt_sorted (hw : StrictWeak lt) {n a b : Nat} (hb : b ≤ n) (wb wp : Bool) {f : Nat → α} (h : a < b) (hA : Agree less lt n f)
    (hl : Lower lt f a b) : Moves a b f (attempt less wb wp a b f).1 ∧
      ((attempt less wb wp a b f).2.2 = true → Sorted lt (attempt less wb wp a b f).1 a b) := by
  unfold attempt
  dsimp only
  have m0 : Moves a b f (if wb then f else breakPatterns a b f) := by
    split
    · exact .refl
    · exact breakPatterns_moves f
  revert m0
  generalize (if wb then f else breakPatterns a b f) = g
  intro m0
  obtain ⟨m1, _, _⟩ := prepare_spec less g h
  revert m1
  generalize prepare less a b g = p
  intro m1
  have m2 := m0.trans m1
  split
  · obtain ⟨r1, r2⟩ := partialLoop_sorted hw hb 5 (a + 1) p.1 (by omega) (by omega) (m2.agree hb hA) (m2.lower hl) (fun i j h1 h2 h3 => by omega)
    exact ⟨m2.trans r1, r2⟩
  · exact ⟨m2, fun h => by cases h⟩

theorem pdq_sorted (hw : StrictWeak lt) {n : Nat} : ∀ (m limit : Nat) (wb wp : Bool) (a b : Nat) (f : Nat → α), b - a ≤ m → b ≤ n →
    Agree less lt n f → Lower lt f a b →
    Moves a b f (pdq less m limit wb wp a b f) ∧ Sorted lt (pdq less m limit wb wp a b f) a b
  | 0, _, _, _, a, b, f, hm, _, _, _ => ⟨.refl, fun i j h1 h2 h3 => by omega⟩
  | m + 1, limit, wb, wp, a, b, f, hm, hb, hA, hl => by
    rw [pdq_succ]
    by_cases h1 : b - a ≤ 12
    · rw [if_pos h1]; exact ⟨insertion_moves less f, insertion_sorted hw hb hA⟩
    · rw [if_neg h1]
      by_cases h2 : limit = 0
      · rw [if_pos h2]; exact ⟨heapSort_moves less (by omega) f, heapSort_sorted hw (by omega) hb hA⟩
      · rw [if_neg h2]
        generalize (if wb = true then limit else limit - 1) = limit'
        obtain ⟨_, p1, p2⟩ := attempt_moves less wb wp f (a := a) (b := b) (by omega)
        obtain ⟨m0, hs⟩ := attempt_sorted hw hb wb wp (show a < b by omega) hA hl
        revert m0 hs p1 p2
        generalize attempt less wb wp a b f = s
        intro p1 p2 m0 hs
        have hA0 := m0.agree hb hA
        have hl0 := m0.lower hl
        by_cases hd : s.2.2 = true
        · rw [if_pos hd]; exact ⟨m0, hs hd⟩
        · rw [if_neg hd]
          by_cases hq : 0 < a ∧ less (s.1 (a - 1)) (s.1 s.2.1) = false
          · rw [if_pos hq]
            obtain ⟨e1, e2, e3, e4, e5, e6⟩ := partitionEqual_spec less s.1 p1 p2
            have hA1 := e1.agree hb hA0
            have hl1 := e1.lower hl0
            have hpiv : ∀ k, a ≤ k → k < b → lt ((partitionEqual less a b s.2.1 s.1).1 k) (s.1 s.2.1) = false := by
              intro k h3 h4
              have h5 := hl1 hq.1 k h3 h4
              rw [e1.out (k := a - 1) (Or.inl (by omega))] at h5
              have h6 := hq.2
              rw [hA0 (a - 1) s.2.1 (by omega) (by omega) (by omega)] at h6
              exact below hw h5 h6
            revert e1 e2 e3 e4 e5 e6 hA1 hl1 hpiv
            generalize partitionEqual less a b s.2.1 s.1 = t
            intro e1 e2 e3 e4 e5 e6 hA1 hl1 hpiv
            have e5' : ∀ k, a ≤ k → k < t.2 → lt (s.1 s.2.1) (t.1 k) = false := by
              intro k h3 h4
              by_cases e : k = a
              · rw [e, e4]; exact hw.irrefl _
              · have := e5 k (by omega) h4
                rw [← e4] at this ⊢
                rwa [hA1 a k (by omega) (by omega) (by omega)] at this
            have e6' : ∀ k, t.2 ≤ k → k < b → lt (s.1 s.2.1) (t.1 k) = true := by
              intro k h3 h4
              have := e6 k h3 h4
              rw [← e4] at this ⊢
              rwa [hA1 a k (by omega) (by omega) (by omega)] at this
            have hl2 : Lower lt t.1 t.2 b := by
              intro _ k h3 h4
              exact below hw (asymm hw (e6' k h3 h4)) (e5' (t.2 - 1) (by omega) (by omega))
            obtain ⟨r1, r2⟩ := pdq_sorted hw m limit' wb wp t.2 b t.1 (by omega) hb hA1 hl2
            refine ⟨(m0.trans e1).trans (r1.mono (by omega) (Nat.le_refl _)), fun i j h3 h4 h5 => ?_⟩
            by_cases hi : t.2 ≤ i
            · exact r2 i j hi h4 h5
            · rw [r1.out (k := i) (by omega)]
              by_cases hj : t.2 ≤ j
              · obtain ⟨l, h6, h7, h8⟩ := r1.into hj h5
                rw [h8]
                exact below hw (asymm hw (e6' l h6 h7)) (e5' i h3 (by omega))
              · rw [r1.out (by omega)]
                exact below hw (hpiv j (by omega) h5) (e5' i h3 (by omega))
          · rw [if_neg hq]
            dsimp only
            obtain ⟨e1, e2, e3, e4, e5⟩ := partition_spec less s.1 p1 p2
            have hA1 := e1.agree hb hA0
            have hl1 := e1.lower hl0
            revert e1 e2 e3 e4 e5 hA1 hl1
            generalize partition less a b s.2.1 s.1 = t
            intro e1 e2 e3 e4 e5 hA1 hl1
            have e4' : ∀ k, a ≤ k → k < t.2.1 → lt (t.1 t.2.1) (t.1 k) = false := by
              intro k h3 h4
              have := e4 k h3 h4
              rw [hA1 k t.2.1 (by omega) (by omega) (by omega)] at this
              exact asymm hw this
            have e5' : ∀ k, t.2.1 < k → k < b → lt (t.1 k) (t.1 t.2.1) = false := by
              intro k h3 h4
              rw [← hA1 k t.2.1 (by omega) (by omega) (by omega)]
              exact e5 k h3 h4
            -- the two parts are sorted apart from each other
            have join : ∀ g : Nat → α, (∀ k, a ≤ k → k < t.2.1 → lt (t.1 t.2.1) (g k) = false) → g t.2.1 = t.1 t.2.1 →
                (∀ k, t.2.1 < k → k < b → lt (g k) (t.1 t.2.1) = false) → Sorted lt g a t.2.1 → Sorted lt g (t.2.1 + 1) b →
                Sorted lt g a b := by
              intro g g1 g2 g3 g4 g5 i j h3 h4 h5
              by_cases hj : j < t.2.1
              · exact g4 i j h3 h4 hj
              · by_cases hi : t.2.1 < i
                · exact g5 i j (by omega) h4 h5
                · have x1 : lt (g j) (t.1 t.2.1) = false := by
                    by_cases e : j = t.2.1
                    · rw [e, g2]; exact hw.irrefl _
                    · exact g3 j (by omega) h5
                  have x2 : lt (t.1 t.2.1) (g i) = false := by
                    by_cases e : i = t.2.1
                    · rw [e, g2]; exact hw.irrefl _
                    · exact g1 i h3 (by omega)
                  exact below hw x1 x2
            have hlow : Lower lt t.1 (t.2.1 + 1) b := by
              intro _ k h3 h4
              rw [Nat.add_sub_cancel]
              exact e5' k (by omega) h4
            by_cases hside : t.2.1 - a < b - t.2.1
            · rw [if_pos hside]
              obtain ⟨r1, r2⟩ := pdq_sorted hw m limit' true true a t.2.1 t.1 (by omega) (by omega) hA1
                (fun h0 k h3 h4 => hl1 h0 k h3 (by omega))
              have hA2 := r1.agree (by omega) hA1
              revert r1 r2 hA2
              generalize pdq less m limit' true true a t.2.1 t.1 = u
              intro r1 r2 hA2
              have hl2 : Lower lt u (t.2.1 + 1) b := by
                intro h0 k h3 h4
                rw [r1.out (by omega), r1.out (by omega)]
                exact hlow h0 k h3 h4
              obtain ⟨q1, q2⟩ := pdq_sorted hw m limit' ((b - a) / 8 ≤ t.2.1 - a) t.2.2 (t.2.1 + 1) b u (by omega) hb hA2 hl2
              refine ⟨((m0.trans e1).trans (r1.mono (Nat.le_refl _) (by omega))).trans (q1.mono (by omega) (Nat.le_refl _)),
                join _ ?_ ?_ ?_ ?_ q2⟩
              · intro k h3 h4
                rw [q1.out (by omega)]
                exact r1.all (P := fun x => lt (t.1 t.2.1) x = false) e4' k h3 h4
              · rw [q1.out (by omega), r1.out (by omega)]
              · intro k h3 h4
                refine q1.all (P := fun x => lt x (t.1 t.2.1) = false) (fun k h3 h4 => ?_) k h3 h4
                rw [r1.out (by omega)]
                exact e5' k (by omega) h4
              · intro i j h3 h4 h5
                rw [q1.out (by omega), q1.out (by omega)]
                exact r2 i j h3 h4 h5
            · rw [if_neg hside]
              obtain ⟨r1, r2⟩ := pdq_sorted hw m limit' true true (t.2.1 + 1) b t.1 (by omega) hb hA1 hlow
              have hA2 := r1.agree hb hA1
              revert r1 r2 hA2
              generalize pdq less m limit' true true (t.2.1 + 1) b t.1 = u
              intro r1 r2 hA2
              have hl2 : Lower lt u a t.2.1 := by
                intro h0 k h3 h4
                rw [r1.out (by omega), r1.out (by omega)]
                exact hl1 h0 k h3 (by omega)
              obtain ⟨q1, q2⟩ := pdq_sorted hw m limit' ((b - a) / 8 ≤ b - t.2.1) t.2.2 a t.2.1 u (by omega) (by omega) hA2 hl2
              refine ⟨((m0.trans e1).trans (r1.mono (by omega) (Nat.le_refl _))).trans (q1.mono (Nat.le_refl _) (by omega)),
                join _ ?_ ?_ ?_ q2 ?_⟩
              · intro k h3 h4
                refine q1.all (P := fun x => lt (t.1 t.2.1) x = false) (fun k h3 h4 => ?_) k h3 h4
                rw [r1.out (by omega)]
                exact e4' k h3 h4
              · rw [q1.out (by omega), r1.out (by omega)]
              · intro k h3 h4
                rw [q1.out (by omega)]
                exact r1.all (P := fun x => lt x (t.1 t.2.1) = false) (fun k h3 h4 => e5' k (by omega) h4) k h3 h4
              · intro i j h3 h4 h5
                rw [q1.out (by omega), q1.out (by omega)]
                exact r2 i j h3 h4 h5

end

end Osv.Pdq
