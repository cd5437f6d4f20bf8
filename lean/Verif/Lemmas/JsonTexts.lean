import Verif.Lemmas.NuGet
import Verif.Lemmas.Json
/-! # Objects of objects with one text, written out -/
namespace Osv
open Str Spec

namespace Json

/-- An object with a text under each key. -/
def texts (f : Str) : List (Str × Str) → JMembers
  | [] => .nil
  | (k, s) :: l => .cons k (.obj (.cons f (.str s) .nil)) (texts f l)

theorem texts_toList (f : Str) (l : List (Str × Str)) :
    (texts f l).toList = l.map fun x => (x.1, .obj (.cons f (.str x.2) .nil)) := by
  induction l with
  | nil => rfl
  | cons x l ih => simp [texts, JMembers.toList, ih]

theorem texts_ok (f : Str) (l : List (Str × Str)) : JOkM (texts f l) := by
  induction l with
  | nil => simp [texts, JOkM]
  | cons x l ih => simp [texts, JOkM, JOk, ih]

theorem texts_typed (f : Str) (l : List (Str × Str)) (h : (l.map (·.1)).Nodup) : TextsTyped (texts f l) f := by
  constructor
  · unfold DistinctKeys
    rw [texts_toList, List.map_map]
    exact h
  · intro k v hv
    unfold Member at hv
    rw [texts_toList] at hv
    obtain ⟨x, hx, e⟩ := List.mem_map.1 hv
    injection e with e1 e2
    subst e2
    refine ⟨_, Or.inl rfl, ⟨by simp [DistinctKeys, JMembers.toList], ?_⟩, ?_⟩
    · intro x hx g hg _
      simp [JMembers.toList] at hx hg
      rw [hx, hg]
    · intro w hw
      simp [Member, JMembers.toList] at hw
      exact Or.inr ⟨_, hw⟩

theorem texts_text (f : Str) (l : List (Str × Str)) (name text : Str) : TextOf (texts f l) name f text ↔ (name, text) ∈ l := by
  unfold TextOf Member
  rw [texts_toList]
  constructor
  · rintro ⟨v, o, hv, ho, ht⟩
    obtain ⟨x, hx, e⟩ := List.mem_map.1 hv
    injection e with e1 e2
    subst e2 e1
    rcases ho with ho | ⟨ho, _⟩
    · injection ho with ho
      subst ho
      rcases ht with ht | ⟨_, ht⟩
      · simp [Member, JMembers.toList] at ht
        rw [ht]; exact hx
      · have := ht (.str x.2) (by simp [Member, JMembers.toList])
        cases this
    · cases ho
  · intro h
    exact ⟨_, _, List.mem_map.2 ⟨_, h, rfl⟩, Or.inl rfl, Or.inl (by simp [Member, JMembers.toList])⟩

end Json
end Osv
