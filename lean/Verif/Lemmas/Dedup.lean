import Verif.Model.Csv
/-! # `dedupStr` -/
namespace Osv

theorem mem_dedupStr (l : List Str) (x : Str) : x ∈ dedupStr l ↔ x ∈ l := by
  induction l with
  | nil => rfl
  | cons y l ih =>
    unfold dedupStr
    rw [List.mem_cons, List.mem_cons, List.mem_filter, ih]
    by_cases h : x = y <;> simp [h]

theorem nodup_dedupStr (l : List Str) : (dedupStr l).Nodup := by
  induction l with
  | nil => exact List.nodup_nil
  | cons y l ih =>
    unfold dedupStr
    rw [List.nodup_cons]
    exact ⟨by simp, ih.filter _⟩

end Osv
