import Verif.Spec.Run
import Verif.Lemmas.Str
/-! # Arguments of the form `parser:path` -/
namespace Osv
open Spec

theorem splitParseAs_none (s : Str) (h : ':' ∉ s) : splitParseAs s = ([], s) := by
  unfold splitParseAs
  have : Str.contains s g!":" = false := by
    cases hc : Str.contains s g!":" with
    | false => rfl
    | true =>
      obtain ⟨a, b, rfl⟩ := (Str.contains_iff _ _).1 hc
      simp at h
  simp [this]

theorem splitParseAs_colon (a b : Str) (h : ':' ∉ a) : splitParseAs (a ++ ':' :: b) = (a, b) := by
  unfold splitParseAs
  have : Str.contains (a ++ ':' :: b) g!":" = true := (Str.contains_iff _ _).2 ⟨a, b, by simp⟩
  rw [this]
  simp only [Bool.not_true, Bool.false_eq_true, if_false]
  exact Str.cut_char ':' a b h

theorem exists_colon (s : Str) (h : ':' ∈ s) : ∃ a b, ':' ∉ a ∧ s = a ++ ':' :: b := by
  induction s with
  | nil => cases h
  | cons c s ih =>
    by_cases hc : c = ':'
    · exact ⟨[], s, by simp, by simp [hc]⟩
    · obtain ⟨a, b, ha, hs⟩ := ih (by
        rcases List.mem_cons.1 h with h | h
        · exact absurd h.symm hc
        · exact h)
      exact ⟨c :: a, b, by simp [ha, Ne.symm hc], by simp [hs]⟩

theorem pathPart_iff (arg p : Str) : PathPart arg p ↔ (splitParseAs arg).2 = p := by
  constructor
  · rintro (⟨h, rfl⟩ | ⟨pre, h, rfl⟩)
    · rw [splitParseAs_none _ h]
    · rw [splitParseAs_colon _ _ h]
  · intro h
    by_cases hc : ':' ∈ arg
    · obtain ⟨a, b, ha, rfl⟩ := exists_colon arg hc
      rw [splitParseAs_colon _ _ ha] at h
      exact .inr ⟨a, ha, by rw [← h]⟩
    · rw [splitParseAs_none _ hc] at h
      exact .inl ⟨hc, h.symm⟩

end Osv
