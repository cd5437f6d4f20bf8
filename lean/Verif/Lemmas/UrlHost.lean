import Verif.Go.Url
import Verif.Lemmas.Str
/-! # A URL with a host contains two slashes -/
namespace Osv.Url
open Osv Str

theorem cut_fst_prefix (s sep : Str) : ∃ t, s = (cut s sep).1 ++ t := by
  unfold cut
  cases h : cut? sep s with
  | none => exact ⟨[], by simp⟩
  | some ab =>
    obtain ⟨a, b⟩ := ab
    exact ⟨sep ++ b, by simpa using cut?_some h⟩

theorem getScheme_suffix (raw acc s sch r : Str) (hs : ∃ t, raw = t ++ s) (h : getScheme raw acc s = some (sch, r)) :
    ∃ t, raw = t ++ r := by
  induction s generalizing acc with
  | nil => simp [getScheme] at h; exact ⟨[], by rw [← h.2]; rfl⟩
  | cons c s ih =>
    obtain ⟨t, ht⟩ := hs
    have hs' : ∃ t, raw = t ++ s := ⟨t ++ [c], by simp [ht]⟩
    have hraw : ∃ t, raw = t ++ raw := ⟨[], rfl⟩
    unfold getScheme at h
    by_cases h1 : isLetter c = true
    · rw [if_pos h1] at h; exact ih _ hs' h
    · rw [if_neg h1] at h
      by_cases h2 : (isDigit c || c == '+' || c == '-' || c == '.') = true
      · rw [if_pos h2] at h
        by_cases h3 : acc.isEmpty = true
        · rw [if_pos h3] at h
          injection h with h; injection h with _ h; rw [← h]; exact hraw
        · rw [if_neg h3] at h; exact ih _ hs' h
      · rw [if_neg h2] at h
        by_cases h4 : (c == ':') = true
        · rw [if_pos h4] at h
          by_cases h3 : acc.isEmpty = true
          · rw [if_pos h3] at h; cases h
          · rw [if_neg h3] at h
            injection h with h; injection h with _ h; rw [← h]; exact hs'
        · rw [if_neg h4] at h
          injection h with h; injection h with _ h; rw [← h]; exact hraw

theorem cutQuery_prefix (s : Str) : ∃ t, s = (cutQuery s).1 ++ t := by
  unfold cutQuery
  split
  · rename_i h
    rw [Bool.and_eq_true] at h
    obtain ⟨t, ht⟩ := (hasSuffix_iff _ _).1 h.1
    exact ⟨g!"?", by rw [ht, List.dropLast_concat]⟩
  · exact cut_fst_prefix _ _

theorem noFragment_host {raw : Str} {u : URL} (h : parseNoFragment raw = some u) (hu : u.host ≠ []) :
    ∃ a b, raw = a ++ g!"//" ++ b := by
  unfold parseNoFragment at h
  by_cases h1 : hasCTL raw = true
  · rw [if_pos h1] at h; cases h
  rw [if_neg h1] at h
  by_cases h2 : raw = g!"*"
  · rw [if_pos h2] at h; injection h with h; rw [← h] at hu; exact absurd rfl hu
  rw [if_neg h2] at h
  cases hg : getScheme raw [] raw with
  | none => rw [hg] at h; cases h
  | some sr =>
    obtain ⟨scheme, rest⟩ := sr
    rw [hg] at h
    dsimp only at h
    obtain ⟨t, ht⟩ := getScheme_suffix raw [] raw scheme rest ⟨[], rfl⟩ hg
    obtain ⟨t2, ht2⟩ := cutQuery_prefix rest
    by_cases h3 : (!hasPrefix (cutQuery rest).1 g!"/") = true
    · rw [if_pos h3] at h
      by_cases h4 : scheme ≠ []
      · rw [if_pos h4] at h; injection h with h; rw [← h] at hu; exact absurd rfl hu
      · rw [if_neg h4] at h
        by_cases h5 : contains (cut (cutQuery rest).1 g!"/").1 g!":" = true
        · rw [if_pos h5] at h; cases h
        · rw [if_neg h5] at h
          obtain ⟨_, _, rfl⟩ := Option.map_eq_some_iff.1 h
          exact absurd rfl hu
    · rw [if_neg h3] at h
      by_cases h4 : (hasPrefix (cutQuery rest).1 g!"//" && (decide (scheme ≠ []) || !hasPrefix (cutQuery rest).1 g!"///")) = true
      · obtain ⟨b, hb⟩ := (hasPrefix_iff _ _).1 ((Bool.and_eq_true _ _).mp h4).1
        refine ⟨t, b ++ t2, ?_⟩
        have : raw = t ++ ((g!"//" ++ b) ++ t2) := by rw [← hb, ← ht2]; exact ht
        rw [this]; simp
      · rw [if_neg h4] at h
        obtain ⟨_, _, rfl⟩ := Option.map_eq_some_iff.1 h
        exact absurd rfl hu

theorem parse_host_slashes {raw : Str} {u : URL} (h : parse raw = some u) (hu : u.host ≠ []) : ∃ a b, raw = a ++ g!"//" ++ b := by
  unfold parse at h
  dsimp only at h
  obtain ⟨t, ht⟩ := cut_fst_prefix raw g!"#"
  cases hp : parseNoFragment (cut raw g!"#").1 with
  | none => rw [hp] at h; cases h
  | some u' =>
    rw [hp] at h
    dsimp only at h
    obtain ⟨f, _, rfl⟩ := Option.map_eq_some_iff.1 h
    obtain ⟨a, b, e⟩ := noFragment_host hp hu
    exact ⟨a, b ++ t, by rw [e] at ht; rw [ht]; simp⟩

end Osv.Url
