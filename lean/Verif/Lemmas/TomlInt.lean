import Verif.Lemmas.TomlValue
/-! # Texts that are read as integers are integers -/
namespace Osv.TomlText
open Osv Spec

theorem underscored_digits {base : Nat} {digit : Char → Bool} (hd : ∀ c, digit c = true → TomlDigit base c) {t : Str}
    (h : underscored digit t = true) : ∃ ds, TomlDigits (TomlDigit base) ds t := by
  fun_induction underscored digit t with
  | case1 => cases h
  | case2 c => exact ⟨_, .one (hd c h)⟩
  | case3 c s ih =>
    rw [Bool.and_eq_true] at h
    obtain ⟨ds, hs⟩ := ih h.2
    exact ⟨_, .under (hd c h.1) hs⟩
  | case4 c s _ _ ih =>
    rw [Bool.and_eq_true] at h
    obtain ⟨ds, hs⟩ := ih h.2
    exact ⟨_, .next (hd c h.1) hs⟩

theorem digits_number {base : Nat} {ds t : Str} (h : TomlDigits (TomlDigit base) ds t) : ∃ n, TomlNumber base ds n := by
  have : ∃ vs, Each HexDigit ds vs := by
    induction h with
    | one hc => obtain ⟨v, hv, _⟩ := hc; exact ⟨_, .cons hv .nil⟩
    | next hc _ ih => obtain ⟨v, hv, _⟩ := hc; obtain ⟨vs, hs⟩ := ih; exact ⟨_, .cons hv hs⟩
    | under hc _ ih => obtain ⟨v, hv, _⟩ := hc; obtain ⟨vs, hs⟩ := ih; exact ⟨_, .cons hv hs⟩
  obtain ⟨vs, hs⟩ := this
  exact ⟨_, vs, hs, rfl⟩

theorem underscored_value {base : Nat} (hb : base ≤ 16) {digit : Char → Bool} (hd : ∀ c, digit c = true ↔ TomlDigit base c) {t : Str}
    (h : underscored digit t = true) : ∃ ds, TomlDigits (TomlDigit base) ds t ∧ TomlNumber base ds (digitsValue base t) := by
  obtain ⟨ds, h1⟩ := underscored_digits (fun c => (hd c).1) h
  obtain ⟨n, hn⟩ := digits_number h1
  have := (digits_facts hb h1 (fun c => (hd c).2)).2.1
  rw [digitsValue_of this hn]
  exact ⟨ds, h1, hn⟩

/-- The digits of a base as the characters of a list. -/
theorem digit_list {base : Nat} {c : Char} : TomlDigit base c ↔
    ∃ v, v < base ∧ ((g!"0123456789abcdef")[v]? = some c ∨ (g!"0123456789ABCDEF")[v]? = some c) :=
  ⟨fun ⟨v, h, hv⟩ => ⟨v, hv, h⟩, fun ⟨v, hv, h⟩ => ⟨v, h, hv⟩⟩

theorem char_range {c : Char} {a b : Nat} (h1 : a ≤ c.toNat) (h2 : c.toNat ≤ b) {P : Char → Prop} (h : ∀ n, a ≤ n → n ≤ b → P (Char.ofNat n)) :
    P c := by
  have := h c.toNat h1 h2
  rwa [Char.ofNat_toNat] at this

theorem decimal_digit (c : Char) : c.isDigit = true ↔ TomlDigit 10 c := by
  refine ⟨fun h => ?_, digit_isDigit⟩
  have h : 48 ≤ c.toNat ∧ c.toNat ≤ 57 := by
    unfold Char.isDigit at h
    simp only [Bool.and_eq_true, decide_eq_true_eq] at h
    exact ⟨h.1, h.2⟩
  refine char_range h.1 h.2 (P := TomlDigit 10) fun n h1 h2 => ⟨n - 48, .inl ?_, by omega⟩
  have : ∀ k : Fin 10, (g!"0123456789abcdef")[k.val]? = some (Char.ofNat (k.val + 48)) := by decide
  have := this ⟨n - 48, by omega⟩
  simpa [Nat.sub_add_cancel h1] using this

theorem octal_digit (c : Char) : decide ('0' ≤ c ∧ c ≤ '7') = true ↔ TomlDigit 8 c := by
  refine ⟨fun h => ?_, fun ⟨v, hv, hl⟩ => hex_cases (P := fun c _ => decide ('0' ≤ c ∧ c ≤ '7')) (by decide) (by decide) hv hl⟩
  have h := of_decide_eq_true h
  have h : 48 ≤ c.toNat ∧ c.toNat ≤ 55 := ⟨h.1, h.2⟩
  refine char_range h.1 h.2 (P := TomlDigit 8) fun n h1 h2 => ⟨n - 48, .inl ?_, by omega⟩
  have : ∀ k : Fin 8, (g!"0123456789abcdef")[k.val]? = some (Char.ofNat (k.val + 48)) := by decide
  have := this ⟨n - 48, by omega⟩
  simpa [Nat.sub_add_cancel h1] using this

theorem binary_digit (c : Char) : decide (c = '0' ∨ c = '1') = true ↔ TomlDigit 2 c := by
  refine ⟨fun h => ?_, fun ⟨v, hv, hl⟩ => hex_cases (P := fun c _ => decide (c = '0' ∨ c = '1')) (by decide) (by decide) hv hl⟩
  rcases of_decide_eq_true h with rfl | rfl
  · exact ⟨0, .inl rfl, by decide⟩
  · exact ⟨1, .inl rfl, by decide⟩

theorem decimal_of_unsigned {t : Str} {n : Nat} (h : unsigned t = some n) : TomlDecimal t n := by
  unfold unsigned at h
  split at h
  · rename_i hc
    injection h with h
    rcases hc with rfl | ⟨hh, hu⟩
    · exact .inl ⟨rfl, by rw [← h]; rfl⟩
    · obtain ⟨ds, h1, h2⟩ := underscored_value (by decide) decimal_digit hu
      exact .inr ⟨ds, h1, hh, h ▸ h2⟩
  · cases h

theorem hex_digit (c : Char) : (hexDigit c).isSome = true ↔ TomlDigit 16 c := by
  refine ⟨fun h => ?_, fun ⟨v, hv, _⟩ => by rw [hexDigit_toml hv]; rfl⟩
  have h : (48 ≤ c.toNat ∧ c.toNat ≤ 57) ∨ (97 ≤ c.toNat ∧ c.toNat ≤ 102) ∨ (65 ≤ c.toNat ∧ c.toNat ≤ 70) := by
    unfold hexDigit at h
    split at h
    · rename_i h'; exact .inl ⟨h'.1, h'.2⟩
    · split at h
      · rename_i h'; exact .inr (.inl ⟨h'.1, h'.2⟩)
      · split at h
        · rename_i h'; exact .inr (.inr ⟨h'.1, h'.2⟩)
        · cases h
  rcases h with h | h | h
  · refine char_range h.1 h.2 (P := TomlDigit 16) fun n h1 h2 => ⟨n - 48, .inl ?_, by omega⟩
    have : ∀ k : Fin 10, (g!"0123456789abcdef")[k.val]? = some (Char.ofNat (k.val + 48)) := by decide
    have := this ⟨n - 48, by omega⟩
    simpa [Nat.sub_add_cancel h1] using this
  · refine char_range h.1 h.2 (P := TomlDigit 16) fun n h1 h2 => ⟨n - 87, .inl ?_, by omega⟩
    have : ∀ k : Fin 6, (g!"0123456789abcdef")[k.val + 10]? = some (Char.ofNat (k.val + 97)) := by decide
    have := this ⟨n - 97, by omega⟩
    simp only at this
    rw [show n - 97 + 10 = n - 87 by omega, show n - 97 + 97 = n by omega] at this
    exact this
  · refine char_range h.1 h.2 (P := TomlDigit 16) fun n h1 h2 => ⟨n - 55, .inr ?_, by omega⟩
    have : ∀ k : Fin 6, (g!"0123456789ABCDEF")[k.val + 10]? = some (Char.ofNat (k.val + 65)) := by decide
    have := this ⟨n - 65, by omega⟩
    simp only at this
    rw [show n - 65 + 10 = n - 55 by omega, show n - 65 + 65 = n by omega] at this
    exact this

theorem bare_int {i : Int} {t : Str} : bare t = some (.int i) ↔ TomlInt i t := by
  refine ⟨fun h => ?_, fun h => (integer_of h).1⟩
  unfold bare at h
  split at h
  · rename_i j hj
    split at h
    · rename_i hr
      injection h with h
      injection h with h
      subst h
      refine ⟨?_, by simpa using hr.1, by simpa using hr.2⟩
      unfold integer at hj
      split at hj
      · split at hj
        · rename_i hu
          injection hj with hj
          obtain ⟨ds, h1, h2⟩ := underscored_value (base := 16) (by decide) hex_digit hu
          exact .inr (.inr (.inr ⟨_, _, ds, ('x', 16), by simp, rfl, h1, h2, hj.symm⟩))
        · cases hj
      · split at hj
        · rename_i hu
          injection hj with hj
          obtain ⟨ds, h1, h2⟩ := underscored_value (base := 8) (by decide) octal_digit hu
          exact .inr (.inr (.inr ⟨_, _, ds, ('o', 8), by simp, rfl, h1, h2, hj.symm⟩))
        · cases hj
      · split at hj
        · rename_i hu
          injection hj with hj
          obtain ⟨ds, h1, h2⟩ := underscored_value (base := 2) (by decide) binary_digit hu
          exact .inr (.inr (.inr ⟨_, _, ds, ('b', 2), by simp, rfl, h1, h2, hj.symm⟩))
        · cases hj
      · obtain ⟨n, hn, rfl⟩ := Option.map_eq_some_iff.1 hj
        exact .inr (.inr (.inl ⟨n, _, rfl, decimal_of_unsigned hn, rfl⟩))
      · obtain ⟨n, hn, rfl⟩ := Option.map_eq_some_iff.1 hj
        exact .inr (.inl ⟨n, _, rfl, decimal_of_unsigned hn, rfl⟩)
      · obtain ⟨n, hn, rfl⟩ := Option.map_eq_some_iff.1 hj
        exact .inl ⟨n, decimal_of_unsigned hn, rfl⟩
    · cases h
  · split at h
    · cases h
    · injection h with h; cases h

end Osv.TomlText
