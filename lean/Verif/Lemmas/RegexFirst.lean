import Verif.Lemmas.RegexMatch
import Verif.Lemmas.RegexEval
/-! # First matches and the matching relation -/
namespace Osv.Re
open Osv

theorem first_none_iff {r : Re} {bol : Bool} {s : Str} {k : Caps} :
    first r bol s k some = none ↔ ∀ x rest k', s = x ++ rest → ¬ Matches r bol k x rest k' := by
  unfold first
  constructor
  · intro h x rest k' e hm
    have := (mem_run_iff r bol s k x rest k').2 ⟨e, hm⟩
    rw [List.findSome?_eq_none_iff] at h
    exact absurd (h _ this) (by simp)
  · intro h
    rw [List.findSome?_eq_none_iff]
    rintro ⟨x, rest, k'⟩ hm
    obtain ⟨e, h'⟩ := (mem_run_iff r bol s k x rest k').1 hm
    exact absurd h' (h x rest k' e)

theorem first_some_sound {r : Re} {bol : Bool} {s : Str} {k : Caps} {t : Str × Str × Caps}
    (h : first r bol s k some = some t) : s = t.1 ++ t.2.1 ∧ Matches r bol k t.1 t.2.1 t.2.2 := by
  unfold first at h
  obtain ⟨a, ha, e⟩ := List.exists_of_findSome?_eq_some h
  cases e
  exact (mem_run_iff r bol s k _ _ _).1 ha

theorem first_map {β : Type} (r : Re) (bol : Bool) (s : Str) (k : Caps) (g : Str × Str × Caps → β) :
    (first r bol s k fun t => some (g t)) = (first r bol s k some).map g := by
  unfold first
  cases run r bol s k <;> rfl

/-- There is no match to the left of the one that is found. -/
theorem findFrom_leftmost (r : Re) (bol : Bool) (s : Str) (f : Found) (h : findFrom r bol s = some f) :
    ∀ a x rest k, s = a ++ x ++ rest → a.length < f.pre.length → ¬ Matches r (bol && a.isEmpty) [] x rest k := by
  induction s generalizing bol f with
  | nil =>
    intro a x rest k _ hl
    simp only [findFrom, Option.map_eq_some_iff] at h
    obtain ⟨_, _, rfl⟩ := h
    simp at hl
  | cons c cs ih =>
    intro a x rest k e hl hm
    simp only [findFrom] at h
    split at h
    · cases h; simp at hl
    · rename_i hn
      rw [Option.map_eq_some_iff] at h
      obtain ⟨g, hg, rfl⟩ := h
      rw [List.head?_eq_none_iff] at hn
      cases a with
      | nil =>
        have := run_complete hm
        simp only [List.nil_append] at e
        simp [← e, hn] at this
      | cons d a =>
        simp only [List.cons_append, List.cons.injEq] at e
        simp at hl
        exact ih false g hg a x rest k e.2 hl (by simpa using hm)

end Osv.Re
