import Verif.Spec.Case
import Verif.Go.JsonDecode
import Verif.Go.Toml
/-! # Folding of names, and numbers in range -/
namespace Osv
open Spec Str

theorem ascii_ofNat (c : Char) (h : c.toNat < 128) : ∃ n : Fin 128, c = Char.ofNat n.val :=
  ⟨⟨c.toNat, h⟩, (Char.ofNat_toNat c).symm⟩

theorem toUpper_high {c : Char} (h : 128 ≤ c.toNat) : c.toUpper = c := by
  unfold Char.toUpper
  rw [dif_neg]
  rintro ⟨_, h2⟩
  have : c.val.toNat ≤ 122 := h2
  have : c.toNat = c.val.toNat := rfl
  omega

theorem toLower_high {c : Char} (h : 128 ≤ c.toNat) : c.toLower = c := by
  unfold Char.toLower
  rw [dif_neg]
  rintro ⟨_, h2⟩
  have : c.val.toNat ≤ 90 := h2
  have : c.toNat = c.val.toNat := rfl
  omega

namespace Json

theorem foldRune_low : ∀ n : Fin 128, foldRune (Char.ofNat n.val) = (Char.ofNat n.val).toUpper := by decide +kernel

theorem foldRune_eq (c : Char) : foldRune c = if c = 'ſ' then 'S' else if c = '\u212A' then 'K' else c.toUpper := by
  by_cases h : c.toNat < 128
  · obtain ⟨n, rfl⟩ := ascii_ofNat c h
    rw [foldRune_low]
    revert n
    decide +kernel
  · rw [toUpper_high (by omega)]
    unfold foldRune
    rw [if_neg]
    · simp only [beq_iff_eq]
    · intro e
      simp only [Bool.and_eq_true, decide_eq_true_eq] at e
      have : c.val.toNat ≤ 122 := e.2
      have : c.toNat = c.val.toNat := rfl
      omega

theorem upper_low : ∀ n : Fin 128, (Char.ofNat n.val).toUpper.toNat < 128 := by decide +kernel
theorem upper_S_low : ∀ n : Fin 128, (Char.ofNat n.val).toUpper = 'S' ↔ Char.ofNat n.val ∈ ['s', 'S', 'ſ'] := by decide +kernel
theorem upper_K_low : ∀ n : Fin 128, (Char.ofNat n.val).toUpper = 'K' ↔ Char.ofNat n.val ∈ ['k', 'K', '\u212A'] := by decide +kernel

theorem foldRune_S (c : Char) : foldRune c = 'S' ↔ c ∈ ['s', 'S', 'ſ'] := by
  by_cases h : c.toNat < 128
  · obtain ⟨n, rfl⟩ := ascii_ofNat c h
    rw [foldRune_low, upper_S_low]
  · rw [foldRune_eq, toUpper_high (by omega)]
    have h1 : c ≠ 's' := by rintro rfl; exact h (by decide)
    have h2 : c ≠ 'S' := by rintro rfl; exact h (by decide)
    by_cases e : c = 'ſ'
    · simp [e]
    · by_cases e' : c = '\u212A'
      · subst e'; decide
      · simp [e, e', h1, h2]

theorem foldRune_K (c : Char) : foldRune c = 'K' ↔ c ∈ ['k', 'K', '\u212A'] := by
  by_cases h : c.toNat < 128
  · obtain ⟨n, rfl⟩ := ascii_ofNat c h
    rw [foldRune_low, upper_K_low]
  · rw [foldRune_eq, toUpper_high (by omega)]
    have h1 : c ≠ 'k' := by rintro rfl; exact h (by decide)
    have h2 : c ≠ 'K' := by rintro rfl; exact h (by decide)
    by_cases e : c = 'ſ'
    · subst e; decide
    · by_cases e' : c = '\u212A'
      · simp [e']
      · simp [e, e', h1, h2]

theorem foldRune_iff (c d : Char) : foldRune c = foldRune d ↔ SameLetter c d := by
  unfold SameLetter
  rw [← foldRune_S, ← foldRune_S, ← foldRune_K, ← foldRune_K]
  constructor
  · intro h
    by_cases hs : foldRune c = 'S'
    · exact Or.inr (Or.inl ⟨hs, h ▸ hs⟩)
    · by_cases hk : foldRune c = 'K'
      · exact Or.inr (Or.inr ⟨hk, h ▸ hk⟩)
      · left
        have key : ∀ x, foldRune x ≠ 'S' → foldRune x ≠ 'K' → foldRune x = x.toUpper := by
          intro x h1 h2
          rw [foldRune_eq] at h1 h2 ⊢
          by_cases h3 : x = 'ſ'
          · exact absurd (if_pos h3) h1
          · rw [if_neg h3] at h2 ⊢
            by_cases h4 : x = '\u212A'
            · exact absurd (if_pos h4) h2
            · rw [if_neg h4]
        rw [← key c hs hk, h]
        exact key d (h ▸ hs) (h ▸ hk)
  · rintro (h | ⟨h1, h2⟩ | ⟨h1, h2⟩)
    · by_cases hc : c = 'ſ'
      · have : d = 'ſ' := by
          have hu : d.toUpper = 'ſ' := by rw [← h, hc]; decide
          by_cases hd : d.toNat < 128
          · obtain ⟨n, rfl⟩ := ascii_ofNat d hd
            exact absurd (congrArg (fun c => decide (c.toNat < 128)) hu) (by simp [upper_low n])
          · rw [toUpper_high (by omega)] at hu; exact hu
        rw [hc, this]
      · by_cases hc' : c = '\u212A'
        · have : d = '\u212A' := by
            have hu : d.toUpper = '\u212A' := by rw [← h, hc']; decide
            by_cases hd : d.toNat < 128
            · obtain ⟨n, rfl⟩ := ascii_ofNat d hd
              exact absurd (congrArg (fun c => decide (c.toNat < 128)) hu) (by simp [upper_low n])
            · rw [toUpper_high (by omega)] at hu; exact hu
          rw [hc', this]
        · have other : ∀ z : Char, 128 ≤ z.toNat → d = z → c = z := by
            intro z hz e
            have hu : c.toUpper = z := by rw [h, e, toUpper_high hz]
            by_cases hd : c.toNat < 128
            · have hlow : c.toUpper.toNat < 128 := by
                obtain ⟨n, rfl⟩ := ascii_ofNat c hd
                exact upper_low n
              rw [hu] at hlow; omega
            · rw [toUpper_high (by omega)] at hu; exact hu
          rw [foldRune_eq, foldRune_eq, if_neg hc, if_neg hc', if_neg fun e => hc (other _ (by decide) e),
            if_neg fun e => hc' (other _ (by decide) e), h]
    · rw [h1, h2]
    · rw [h1, h2]

theorem foldName_iff (s t : Str) : foldName s = foldName t ↔ SameName s t := by
  unfold foldName
  induction s generalizing t with
  | nil => cases t <;> simp [SameName]
  | cons c s ih =>
    cases t with
    | nil => simp [SameName]
    | cons d t => simp only [List.map_cons, List.cons.injEq, SameName, foldRune_iff, ih]

/-- The value of digits. -/
theorem digitsOf_fold {s : Str} {n : Nat} (h : DigitsOf s n) :
    s ≠ [] ∧ s.all isDigit = true ∧ s.foldl (fun n c => 10 * n + (c.toNat - 48)) 0 = n := by
  have dig : ∀ {c : Char} {n : Nat}, c.toNat = 48 + n → n ≤ 9 → isDigit c = true := by
    intro c n h1 h2
    unfold isDigit
    simp only [Bool.and_eq_true, decide_eq_true_eq, Char.le_def, UInt32.le_iff_toNat_le]
    have e1 : c.val.toNat = 48 + n := h1
    have e2 : ('0' : Char).val.toNat = 48 := rfl
    have e3 : ('9' : Char).val.toNat = 57 := rfl
    omega
  induction h with
  | one h1 h2 => exact ⟨by simp, by simp [dig h1 h2], by simp; omega⟩
  | more hs h1 h2 ih =>
    refine ⟨by simp, by simp [List.all_append, ih.2.1, dig h1 h2], ?_⟩
    rw [List.foldl_append, ih.2.2]
    simp
    omega

theorem digitsOf_of_all : ∀ (n : Nat) (s : Str), s.length = n → s ≠ [] → s.all isDigit = true → ∃ n, DigitsOf s n := by
  intro n
  induction n with
  | zero => intro s h h'; exact absurd (List.length_eq_zero_iff.1 h) h'
  | succ n ih =>
    intro s hl hn hd
    obtain ⟨s', c, rfl⟩ : ∃ s' c, s = s' ++ [c] := ⟨s.dropLast, s.getLast hn, (List.dropLast_concat_getLast hn).symm⟩
    rw [List.all_append, Bool.and_eq_true] at hd
    have hc : isDigit c = true := by simpa using hd.2
    unfold isDigit at hc
    simp only [Bool.and_eq_true, decide_eq_true_eq, Char.le_def, UInt32.le_iff_toNat_le] at hc
    have e2 : ('0' : Char).val.toNat = 48 := rfl
    have e3 : ('9' : Char).val.toNat = 57 := rfl
    have e1 : c.val.toNat = c.toNat := rfl
    have h1 : c.toNat = 48 + (c.toNat - 48) := by omega
    have h2 : c.toNat - 48 ≤ 9 := by omega
    by_cases hs : s' = []
    · subst hs
      exact ⟨_, .one h1 h2⟩
    · obtain ⟨m, hm⟩ := ih s' (by simpa using hl) hs hd.1
      exact ⟨_, .more hm h1 h2⟩

theorem isInt64_iff (lit : Str) : isInt64 lit = true ↔ Int64Text lit := by
  unfold isInt64
  dsimp only
  constructor
  · intro h
    by_cases hp : hasPrefix lit g!"-" = true
    · rw [if_pos hp, if_pos hp] at h
      simp only [Bool.and_eq_true, decide_eq_true_eq, ne_eq] at h
      obtain ⟨t, rfl⟩ := List.isPrefixOf_iff_prefix.1 (show (['-'] : Str).isPrefixOf lit = true from hp)
      simp only [List.singleton_append, List.drop_one, List.tail_cons] at h
      obtain ⟨n, hn⟩ := digitsOf_of_all _ t rfl h.1.1 h.1.2
      rw [(digitsOf_fold hn).2.2] at h
      exact .neg hn h.2
    · rw [if_neg hp, if_neg hp] at h
      simp only [Bool.and_eq_true, decide_eq_true_eq, ne_eq] at h
      obtain ⟨n, hn⟩ := digitsOf_of_all _ lit rfl h.1.1 h.1.2
      rw [(digitsOf_fold hn).2.2] at h
      exact .nonneg hn h.2
  · intro h
    cases h with
    | @nonneg s n hs hn =>
      obtain ⟨h1, h2, h3⟩ := digitsOf_fold hs
      have hp : ¬ hasPrefix lit g!"-" = true := by
        intro hp
        obtain ⟨t, rfl⟩ := List.isPrefixOf_iff_prefix.1 (show (['-'] : Str).isPrefixOf lit = true from hp)
        exact absurd h2 (by simp [isDigit])
      rw [if_neg hp, if_neg hp, h3]
      simp [h1, h2, hn]
    | @neg s n hs hn =>
      obtain ⟨h1, h2, h3⟩ := digitsOf_fold hs
      have hp : hasPrefix ('-' :: s) g!"-" = true := by simp [hasPrefix]
      rw [if_pos hp, if_pos hp, List.drop_one, List.tail_cons, h3]
      simp [h1, h2, hn]

end Json

namespace Toml

theorem foldChar_low : ∀ n : Fin 128, foldChar (Char.ofNat n.val) = (Char.ofNat n.val).toLower := by decide +kernel

theorem lower_low : ∀ n : Fin 128, (Json.foldRune (Char.ofNat n.val)).toLower = (Char.ofNat n.val).toLower ∧
    (Char.ofNat n.val).toLower.toUpper = (Char.ofNat n.val).toUpper := by decide +kernel

/-- Folding to lower case, by folding to upper case. -/
theorem foldChar_eq (c : Char) : foldChar c = (Json.foldRune c).toLower ∧ (foldChar c).toUpper = Json.foldRune c := by
  by_cases h : c.toNat < 128
  · obtain ⟨n, rfl⟩ := ascii_ofNat c h
    rw [foldChar_low, Json.foldRune_low]
    exact ⟨by rw [← Json.foldRune_low]; exact (lower_low n).1.symm, (lower_low n).2⟩
  · rw [Json.foldRune_eq, toUpper_high (by omega)]
    unfold foldChar
    by_cases e : c = 'ſ'
    · subst e; decide
    · by_cases e' : c = '\u212A'
      · subst e'; decide
      · rw [if_neg e, if_neg e', if_neg e, if_neg e', toLower_high (by omega), toUpper_high (by omega)]
        exact ⟨rfl, rfl⟩

theorem foldChar_iff (c d : Char) : foldChar c = foldChar d ↔ SameLetter c d := by
  rw [← Json.foldRune_iff]
  constructor
  · intro h
    rw [← (foldChar_eq c).2, ← (foldChar_eq d).2, h]
  · intro h
    rw [(foldChar_eq c).1, (foldChar_eq d).1, h]

theorem fold_iff (s t : Str) : fold s = fold t ↔ SameName s t := by
  unfold fold
  induction s generalizing t with
  | nil => cases t <;> simp [SameName]
  | cons c s ih =>
    cases t with
    | nil => simp [SameName]
    | cons d t => simp only [List.map_cons, List.cons.injEq, SameName, foldChar_iff, ih]

theorem nodup_fold {α : Type} (es : List (Str × α)) :
    (es.map fun e => fold e.1).Nodup ↔ es.Pairwise fun a b => ¬ SameName a.1 b.1 := by
  unfold List.Nodup
  rw [List.pairwise_map]
  simp only [ne_eq, fold_iff]

end Toml
end Osv
