import Verif.Go.Str
/-! Lemmas about the string functions. -/
namespace Osv.Str
open Osv

theorem isPrefixOf_iff (p s : Str) : p.isPrefixOf s = true ↔ ∃ t, s = p ++ t := by
  rw [List.isPrefixOf_iff_prefix]
  constructor
  · rintro ⟨t, rfl⟩; exact ⟨t, rfl⟩
  · rintro ⟨t, rfl⟩; exact ⟨t, rfl⟩

theorem hasPrefix_iff (s p : Str) : hasPrefix s p = true ↔ ∃ t, s = p ++ t := isPrefixOf_iff p s

theorem hasSuffix_iff (s p : Str) : hasSuffix s p = true ↔ ∃ t, s = t ++ p := by
  unfold hasSuffix
  rw [List.isSuffixOf_iff_suffix]
  constructor
  · rintro ⟨t, rfl⟩; exact ⟨t, rfl⟩
  · rintro ⟨t, rfl⟩; exact ⟨t, rfl⟩

@[simp] theorem hasPrefix_append (p t : Str) : hasPrefix (p ++ t) p = true := (hasPrefix_iff _ _).mpr ⟨t, rfl⟩
@[simp] theorem hasSuffix_append (p t : Str) : hasSuffix (t ++ p) p = true := (hasSuffix_iff _ _).mpr ⟨t, rfl⟩

theorem trimPrefix_append (p t : Str) : trimPrefix (p ++ t) p = t := by simp [trimPrefix]
theorem trimSuffix_append (p t : Str) : trimSuffix (t ++ p) p = t := by simp [trimSuffix]

/-- `cut?` finds an occurrence. -/
theorem cut?_some {sep s a b : Str} (h : cut? sep s = some (a, b)) : s = a ++ sep ++ b := by
  induction s generalizing a b with
  | nil =>
    unfold cut? at h
    split at h
    · rename_i hp
      rw [isPrefixOf_iff] at hp
      obtain ⟨t, ht⟩ := hp
      cases h
      simp at ht
      simp [ht]
    · cases h
  | cons c cs ih =>
    unfold cut? at h
    split at h
    · rename_i hp
      rw [isPrefixOf_iff] at hp
      obtain ⟨t, ht⟩ := hp
      cases h
      rw [ht]; simp
    · rw [Option.map_eq_some_iff] at h
      obtain ⟨⟨a', b'⟩, h1, h2⟩ := h
      cases h2
      rw [ih h1]; simp

/-- `cut?` finds the first occurrence: none starts earlier. -/
theorem cut?_first {sep s a b : Str} (h : cut? sep s = some (a, b)) :
    ∀ a' b', s = a' ++ sep ++ b' → a.length ≤ a'.length := by
  induction s generalizing a b with
  | nil =>
    intro a' b' hs
    unfold cut? at h
    split at h
    · cases h; simp
    · cases h
  | cons c cs ih =>
    intro a' b' hs
    unfold cut? at h
    split at h
    · cases h; simp
    · rename_i hp
      rw [Option.map_eq_some_iff] at h
      obtain ⟨⟨a'', b''⟩, h1, h2⟩ := h
      cases h2
      cases a' with
      | nil =>
        exfalso; apply hp
        rw [isPrefixOf_iff]; exact ⟨b', by simpa using hs⟩
      | cons d a' =>
        simp only [List.cons_append, List.cons.injEq] at hs
        have := ih h1 a' b' hs.2
        simp; omega

theorem cut?_none_iff {sep s : Str} : cut? sep s = none ↔ ∀ a b, s ≠ a ++ sep ++ b := by
  induction s with
  | nil =>
    unfold cut?
    split
    · rename_i hp
      rw [isPrefixOf_iff] at hp
      obtain ⟨t, ht⟩ := hp
      simp only [reduceCtorEq, false_iff]
      intro h
      exact h [] t (by simpa using ht)
    · rename_i hp
      simp only [true_iff]
      intro a b hs
      apply hp
      rw [isPrefixOf_iff]
      have hs' : (a = [] ∧ sep = []) ∧ b = [] := by simpa [and_assoc] using hs.symm
      exact ⟨[], by simp [hs'.1.2]⟩
  | cons c cs ih =>
    unfold cut?
    split
    · rename_i hp
      rw [isPrefixOf_iff] at hp
      obtain ⟨t, ht⟩ := hp
      simp only [reduceCtorEq, false_iff]
      intro h
      exact h [] t (by simpa using ht)
    · rename_i hp
      rw [Option.map_eq_none_iff, ih]
      constructor
      · intro h a b hs
        cases a with
        | nil => exact hp ((isPrefixOf_iff _ _).mpr ⟨b, by simpa using hs⟩)
        | cons d a =>
          simp only [List.cons_append, List.cons.injEq] at hs
          exact h a b hs.2
      · intro h a b hs
        exact h (c :: a) b (by simp [hs])

theorem contains_iff (s sub : Str) : contains s sub = true ↔ ∃ a b, s = a ++ sub ++ b := by
  unfold contains
  cases h : cut? sub s with
  | none =>
    rw [cut?_none_iff] at h
    simp only [Option.isSome_none, Bool.false_eq_true, false_iff]
    rintro ⟨a, b, hs⟩
    exact h a b hs
  | some r =>
    simp only [Option.isSome_some, true_iff]
    exact ⟨r.1, r.2, cut?_some h⟩

/-- Cutting at a rune that does not occur before it. -/
theorem cut?_char (c : Char) (a b : Str) (h : c ∉ a) : cut? [c] (a ++ c :: b) = some (a, b) := by
  induction a with
  | nil => simp [cut?]
  | cons d a ih =>
    simp only [List.mem_cons, not_or] at h
    rw [List.cons_append, cut?, if_neg (by simp [h.1]), ih h.2]
    rfl

theorem cut?_char_none (c : Char) (s : Str) (h : c ∉ s) : cut? [c] s = none := by
  rw [cut?_none_iff]
  intro a b hs
  apply h; rw [hs]; simp

theorem cut_char (c : Char) (a b : Str) (h : c ∉ a) : cut (a ++ c :: b) [c] = (a, b) := by
  simp [cut, cut?_char c a b h]

theorem cut_char_none (c : Char) (s : Str) (h : c ∉ s) : cut s [c] = (s, []) := by
  simp [cut, cut?_char_none c s h]

/-- `strings.Cut` at a rune, by taking and dropping. -/
theorem cut_char_eq (c : Char) (s : Str) :
    cut s [c] = (s.takeWhile (· != c), (s.dropWhile (· != c)).drop 1) := by
  induction s with
  | nil => simp [cut, cut?]
  | cons d s ih =>
    by_cases h : d = c
    · subst h; simp [cut, cut?]
    · have : cut (d :: s) [c] = (d :: (cut s [c]).1, (cut s [c]).2) := by
        unfold cut
        rw [cut?, if_neg (by simp [Ne.symm h])]
        cases cut? [c] s <;> rfl
      rw [this, ih]
      simp [h]

theorem splitChar_ne_nil (c : Char) (s : Str) : splitChar c s ≠ [] := by
  cases s with
  | nil => simp [splitChar]
  | cons d s =>
    unfold splitChar
    split
    · simp
    · split <;> simp

/-- Splitting a text without the separator. -/
theorem splitChar_of_not_mem (c : Char) (s : Str) (h : c ∉ s) : splitChar c s = [s] := by
  induction s with
  | nil => rfl
  | cons d s ih =>
    simp only [List.mem_cons, not_or] at h
    rw [splitChar, if_neg (Ne.symm h.1), ih h.2]

theorem splitChar_append (c : Char) (a b : Str) (h : c ∉ a) :
    splitChar c (a ++ c :: b) = a :: splitChar c b := by
  induction a with
  | nil => simp [splitChar]
  | cons d a ih =>
    simp only [List.mem_cons, not_or] at h
    rw [List.cons_append, splitChar, if_neg (Ne.symm h.1), ih h.2]

/-- Joining the pieces gives back the text. -/
theorem join_splitChar (c : Char) (s : Str) : join [c] (splitChar c s) = s := by
  induction s with
  | nil => rfl
  | cons d s ih =>
    unfold splitChar
    have hne := splitChar_ne_nil c s
    split
    · rename_i h
      cases hs : splitChar c s with
      | nil => exact absurd hs hne
      | cons p ps => rw [join, ← hs, ih, h]; simp
    · cases hs : splitChar c s with
      | nil => exact absurd hs hne
      | cons p ps =>
        rw [hs] at ih
        simp only
        cases ps with
        | nil => simp [join] at ih ⊢; exact ih
        | cons q qs => simp [join] at ih ⊢; exact ih

/-- No piece contains the separator. -/
theorem not_mem_splitChar (c : Char) (s : Str) : ∀ p ∈ splitChar c s, c ∉ p := by
  induction s with
  | nil => simp [splitChar]
  | cons d s ih =>
    intro p hp
    unfold splitChar at hp
    split at hp
    · rcases List.mem_cons.mp hp with rfl | hp
      · simp
      · exact ih p hp
    · rename_i h
      split at hp
      · simp at hp; subst hp; simpa using Ne.symm h
      · rename_i q qs hs
        rcases List.mem_cons.mp hp with rfl | hp
        · have := ih q (by simp [hs])
          simp only [List.mem_cons, not_or]
          exact ⟨fun e => h e.symm, this⟩
        · exact ih p (by simp [hs, hp])

/-- Splitting what was joined, when no piece contains the separator. -/
theorem splitChar_join (c : Char) (ps : List Str) (hne : ps ≠ []) (h : ∀ p ∈ ps, c ∉ p) :
    splitChar c (join [c] ps) = ps := by
  induction ps with
  | nil => exact absurd rfl hne
  | cons p ps ih =>
    cases ps with
    | nil => simpa [join] using splitChar_of_not_mem c p (h p (by simp))
    | cons q qs =>
      rw [join]
      have : p ++ [c] ++ join [c] (q :: qs) = p ++ c :: join [c] (q :: qs) := by simp
      rw [this, splitChar_append c _ _ (h p (by simp)),
        ih (by simp) (fun x hx => h x (List.mem_cons_of_mem _ hx))]

theorem cutLast?_none (c : Char) (s : Str) (h : c ∉ s) : cutLast? c s = none := by
  induction s with
  | nil => rfl
  | cons d s ih =>
    simp only [List.mem_cons, not_or] at h
    rw [cutLast?, ih h.2]
    simp [Ne.symm h.1]

theorem cutLast?_append (c : Char) (a b : Str) (h : c ∉ b) : cutLast? c (a ++ c :: b) = some (a, b) := by
  induction a with
  | nil => rw [List.nil_append, cutLast?, cutLast?_none c b h]; simp
  | cons d a ih => rw [List.cons_append, cutLast?, ih]

theorem dropRight_all (p : Char → Bool) (s : Str) (h : ∀ c ∈ s.getLast?, p c = false) : dropRight p s = s := by
  unfold dropRight
  cases hs : s.reverse with
  | nil => simp at hs; simp [hs]
  | cons c cs =>
    have : s.getLast? = some c := by rw [List.getLast?_eq_head?_reverse, hs]; rfl
    rw [List.dropWhile_cons, h c (by simp [this])]
    simp [← hs]

theorem dropRight_append (p : Char → Bool) (s t : Str) (ht : t.all p = true) :
    dropRight p (s ++ t) = dropRight p s := by
  unfold dropRight
  rw [List.reverse_append]
  congr 1
  have : ∀ (u v : Str), u.all p = true → (u ++ v).dropWhile p = v.dropWhile p := by
    intro u v hu
    induction u with
    | nil => rfl
    | cons c u ih => simp at hu; simp [hu.1]; apply ih; simpa using hu.2
  apply this
  simpa using ht

theorem dropWhile_all_append (p : Char → Bool) (u v : Str) (hu : u.all p = true) :
    (u ++ v).dropWhile p = v.dropWhile p := by
  induction u with
  | nil => rfl
  | cons c u ih => simp at hu; simp [hu.1]; apply ih; simpa using hu.2

theorem dropWhile_self (p : Char → Bool) (s : Str) (h : ∀ c ∈ s.head?, p c = false) : s.dropWhile p = s := by
  cases s with
  | nil => rfl
  | cons c s => simp at h; simp [h]

end Osv.Str
