import Verif.Go.Str
/-! # Lengths, for termination -/
namespace Osv
open Str

theorem cut_snd_le (s : Str) (c : Char) : (cut s [c]).2.length ≤ s.length := by
  unfold cut
  cases h : cut? [c] s with
  | none => simp
  | some r =>
    induction s generalizing r with
    | nil => simp [cut?, List.isPrefixOf] at h
    | cons d s ih =>
      unfold cut? at h
      split at h
      · cases h; simp
      · rw [Option.map_eq_some_iff] at h
        obtain ⟨⟨a, b⟩, h1, rfl⟩ := h
        have := ih _ h1
        simp at this ⊢
        omega

theorem cut_fst_le (s : Str) (c : Char) : (cut s [c]).1.length ≤ s.length := by
  unfold cut
  cases h : cut? [c] s with
  | none => simp
  | some r =>
    induction s generalizing r with
    | nil => simp [cut?, List.isPrefixOf] at h
    | cons d s ih =>
      unfold cut? at h
      split at h
      · cases h; simp
      · rw [Option.map_eq_some_iff] at h
        obtain ⟨⟨a, b⟩, h1, rfl⟩ := h
        have := ih _ h1
        simp at this ⊢
        omega

theorem trimPrefix_le (s p : Str) : (trimPrefix s p).length ≤ s.length := by
  unfold trimPrefix; split <;> simp

theorem cutPrefix_le (s p : Str) : (cutPrefix s p).1.length ≤ s.length := by
  unfold cutPrefix; split <;> simp

theorem trimPrefix_lt (s p : Str) (hp : p ≠ []) (h : hasPrefix s p = true) : (trimPrefix s p).length < s.length := by
  unfold trimPrefix
  rw [if_pos h]
  cases p with
  | nil => exact absurd rfl hp
  | cons c p =>
    cases s with
    | nil => exact absurd h (by simp [hasPrefix, List.isPrefixOf])
    | cons d s => simp; omega

end Osv
