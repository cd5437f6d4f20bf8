import Verif.Go.ParseFloat
import Verif.Spec.Float
import Verif.Lemmas.Precedence
/-! # Decimal numbers -/
namespace Osv.ParseFloat
open Str Osv.Spec Osv.Spec.ModText

theorem numeral_value {s : Str} {n : Nat} : Numeral 10 s n ↔ s.all isDigit = true ∧ value s = n := by
  rw [Semantic.numeral_decimal]
  have : (s.all isDigit = true) ↔ ∀ c ∈ s, Digit c := by simp [isDigit, Digit]
  rw [this]
  rfl

theorem sign_of {a t : Str} {neg : Bool} (h : FloatSign a neg) (ht : ∀ c ∈ t.head?, c ≠ '+' ∧ c ≠ '-') : sign (a ++ t) = (neg, t) := by
  cases h with
  | none =>
    cases t with
    | nil => rfl
    | cons c t =>
      obtain ⟨h1, h2⟩ := ht c rfl
      show sign (c :: t) = _
      unfold sign
      split
      · rename_i e; cases e; exact absurd rfl h1
      · rename_i e; cases e; exact absurd rfl h2
      · rfl
  | plus => rfl
  | minus => rfl

theorem sign_inv (s : Str) : ∃ a, FloatSign a (sign s).1 ∧ s = a ++ (sign s).2 := by
  unfold sign
  split
  · exact ⟨_, .plus, rfl⟩
  · exact ⟨_, .minus, rfl⟩
  · exact ⟨_, .none, rfl⟩

theorem digit_head {s : Str} (h : s.all isDigit = true) {t : Str} (hs : s ≠ []) : ∀ c ∈ (s ++ t).head?, c ≠ '+' ∧ c ≠ '-' := by
  cases s with
  | nil => exact absurd rfl hs
  | cons x s =>
    intro c hc
    cases hc
    have := (Bool.and_eq_true _ _ ▸ (List.all_cons ▸ h : (isDigit x && s.all isDigit) = true)).1
    constructor <;> (rintro rfl; exact absurd this (by decide))

theorem exponent_iff {t : Str} {e : Int} : exponent t = some e ↔ FloatExp t e := by
  constructor
  · intro h
    unfold exponent at h
    split at h
    · cases h; exact .none
    · rename_i c t
      split at h
      · rename_i hc
        split at h
        · rename_i hd
          obtain ⟨a, ha, e'⟩ := sign_inv t
          cases h
          have := FloatExp.some hc ha hd.1 hd.2.2 (numeral_value.2 ⟨hd.2.1, rfl⟩)
          rwa [← e'] at this
        · cases h
      · cases h
  · intro h
    cases h with
    | none => rfl
    | some hc ha hne hl hn =>
      obtain ⟨h1, h2⟩ := numeral_value.1 hn
      have := sign_of ha (by simpa using digit_head (t := []) h1 hne)
      unfold exponent
      dsimp only
      rw [if_pos hc, this]
      dsimp only
      rw [if_pos ⟨hne, h1, hl⟩, h2]

theorem exp_head {t : Str} {e : Int} (h : FloatExp t e) : ∀ c ∈ t.head?, isDigit c = false ∧ c ≠ '.' := by
  cases h with
  | none => intro c hc; cases hc
  | some hc =>
    intro c h
    cases h
    rcases hc with rfl | rfl <;> decide

theorem span_digits {ds t : Str} (h : ds.all isDigit = true) (ht : ∀ c ∈ t.head?, isDigit c = false) :
    (ds ++ t).takeWhile isDigit = ds ∧ (ds ++ t).dropWhile isDigit = t := by
  have h' := List.all_eq_true.1 h
  rw [List.takeWhile_append_of_pos h', List.dropWhile_append_of_pos h']
  cases t with
  | nil => simp
  | cons c t =>
    have := ht c rfl
    simp [List.takeWhile_cons, List.dropWhile_cons, this]

theorem read_of {s : Str} {neg : Bool} {m : Nat} {e : Int} (h : FloatText s neg m e) : read s = some ⟨neg, m, e⟩ := by
  cases h with
  | @whole a ds t neg m e ha hne hn ht =>
    obtain ⟨h1, h2⟩ := numeral_value.1 hn
    have hs := sign_of (t := ds ++ t) ha (digit_head h1 hne)
    obtain ⟨h3, h4⟩ := span_digits (t := t) h1 fun c hc => (exp_head ht c hc).1
    have hf : fraction t = ([], t) := by
      cases t with
      | nil => rfl
      | cons c t =>
        have := (exp_head ht c rfl).2
        unfold fraction
        split
        · rename_i e; cases e; exact absurd rfl this
        · rfl
    unfold read
    rw [hs]
    dsimp only
    rw [h3, h4, hf]
    dsimp only
    rw [List.append_nil, if_neg hne, exponent_iff.2 ht, h2]
    simp
  | @point a ds fs t neg m e ha hne hn ht =>
    obtain ⟨h1, h2⟩ := numeral_value.1 hn
    rw [List.all_append, Bool.and_eq_true] at h1
    have hs : sign (a ++ (ds ++ '.' :: (fs ++ t))) = (neg, ds ++ '.' :: (fs ++ t)) := by
      refine sign_of ha ?_
      cases ds with
      | nil => intro c hc; cases hc; decide
      | cons c ds => exact digit_head h1.1 (List.cons_ne_nil _ _)
    obtain ⟨h3, h4⟩ := span_digits (ds := ds) (t := '.' :: (fs ++ t)) h1.1 fun c hc => by cases hc; rfl
    obtain ⟨h5, h6⟩ := span_digits (ds := fs) (t := t) h1.2 fun c hc => (exp_head ht c hc).1
    unfold read
    rw [hs]
    dsimp only
    rw [h3, h4]
    have hf : fraction ('.' :: (fs ++ t)) = (fs, t) := by
      show (List.takeWhile isDigit (fs ++ t), List.dropWhile isDigit (fs ++ t)) = _
      rw [h5, h6]
    rw [hf]
    dsimp only
    rw [if_neg hne, exponent_iff.2 ht, h2]
    rfl

theorem read_inv {s : Str} {d : Dec} (h : read s = some d) : FloatText s d.neg d.mant d.exp := by
  unfold read at h
  dsimp only at h
  obtain ⟨a, ha, hs⟩ := sign_inv s
  generalize (sign s).2 = t at *
  generalize (sign s).1 = neg at *
  have htw := List.takeWhile_append_dropWhile (p := isDigit) (l := t)
  have hall := List.all_takeWhile (p := isDigit) (l := t)
  generalize t.takeWhile isDigit = ds at *
  generalize t.dropWhile isDigit = u at *
  split at h
  · cases h
  · rename_i hne
    obtain ⟨e, he, rfl⟩ := Option.map_eq_some_iff.1 h
    rw [exponent_iff] at he
    rw [hs, ← htw]
    have hfr : (∃ v, u = '.' :: v ∧ fraction u = (v.takeWhile isDigit, v.dropWhile isDigit)) ∨ fraction u = ([], u) := by
      unfold fraction
      split
      · exact .inl ⟨_, rfl, rfl⟩
      · exact .inr rfl
    rcases hfr with ⟨v, rfl, hf⟩ | hf
    · rw [hf] at hne he ⊢
      dsimp only at hne he ⊢
      have hall' := List.all_takeWhile (p := isDigit) (l := v)
      have hv := List.takeWhile_append_dropWhile (p := isDigit) (l := v)
      have := FloatText.point ha hne (numeral_value.2 ⟨by rw [List.all_append, hall, hall']; rfl, rfl⟩) he
      rwa [hv] at this
    · rw [hf] at hne he ⊢
      dsimp only at hne he ⊢
      rw [List.append_nil] at hne ⊢
      have := FloatText.whole ha hne (numeral_value.2 ⟨hall, rfl⟩) he
      simpa using this

/-! ### Rounding -/

theorem next_iff (p q : Nat) (hq : 0 < q) : NextToNine p q ↔ 2 ^ 50 * p ≤ (9 * 2 ^ 50 + 1) * q ∧ (9 * 2 ^ 50 - 1) * q ≤ 2 ^ 50 * p := by
  unfold NextToNine
  generalize hA : (p : Int) * 2 ^ 49 - 9 * 2 ^ 49 * q = A
  have hshift : ∀ k : Int, (p : Int) * 2 ^ 49 - k * q = A - (k - 9 * 2 ^ 49) * q := by
    intro k
    rw [Int.sub_mul, ← hA]
    omega
  have hmid : (2 ^ 50 * p ≤ (9 * 2 ^ 50 + 1) * q ∧ (9 * 2 ^ 50 - 1) * q ≤ 2 ^ 50 * p) ↔ 2 * A.natAbs ≤ q := by omega
  rw [hmid]
  constructor
  · intro h
    have h1 := h (9 * 2 ^ 49 + 1)
    have h2 := h (9 * 2 ^ 49 - 1)
    rw [hshift] at h1 h2
    have e1 : (9 * 2 ^ 49 + 1 - 9 * 2 ^ 49 : Int) * q = q := by omega
    have e2 : (9 * 2 ^ 49 - 1 - 9 * 2 ^ 49 : Int) * q = -q := by omega
    rw [e1] at h1
    rw [e2] at h2
    omega
  · intro h k
    rw [hshift]
    generalize k - 9 * 2 ^ 49 = j
    by_cases hj : j = 0
    · subst hj; omega
    · have : q ≤ (j * q).natAbs := by
        rw [Int.natAbs_mul, Int.natAbs_natCast]
        exact Nat.le_mul_of_pos_left _ (by omega)
      omega

theorem fits_iff (d : Dec) : d.fits = true ↔ BelowInfinity d.num d.den := by
  unfold Dec.fits BelowInfinity
  rw [decide_eq_true_iff]
  have e : ((2 ^ 53 - 1) * 2 ^ 971 + 2 ^ 1024 : Nat) = 2 * (2 ^ 970 * (2 ^ 54 - 1)) := by decide +kernel
  rw [e, Nat.mul_assoc 2, Nat.mul_lt_mul_left (by decide)]

end Osv.ParseFloat
