import Verif.Lemmas.PipGraph
/-! # C40: includes of requirements.txt terminate -/
namespace Osv
open Str Spec

/-- Parsing returns for every include graph over finitely many readable files: there is a depth from which on the result
is the same. -/
theorem C40_terminates (fs : Str → Option Str) (dom : List Str) (hd : ∀ p, fs p ≠ none → p ∈ dom)
    (order : Str → List Str → List PackageDetails → List PackageDetails) (path : Str) :
    ∃ res, ∀ depth, dom.length + 2 ≤ depth → parseRequirementsTxt fs order depth path = some res := by
  obtain ⟨x, hx, _⟩ := Pip.at_total fs order dom hd (dom.length + 2) path [] (by have := List.length_filter_le (fun p => !([] : List Str).contains p) dom; unfold Pip.free; omega)
  refine ⟨x.1, fun depth h => ?_⟩
  unfold parseRequirementsTxt
  rw [Pip.at_mono_le _ _ _ _ h _ _ _ hx]
  rfl

/-- A result does not depend on the depth at which it was obtained. -/
theorem C40_stable (fs : Str → Option Str) (order : Str → List Str → List PackageDetails → List PackageDetails)
    (n m : Nat) (path : Str) (x y : Option (List PackageDetails)) (h1 : parseRequirementsTxt fs order n path = some x)
    (h2 : parseRequirementsTxt fs order m path = some y) : x = y := by
  unfold parseRequirementsTxt at h1 h2
  obtain ⟨a, ha, rfl⟩ := Option.map_eq_some_iff.1 h1
  obtain ⟨b, hb, rfl⟩ := Option.map_eq_some_iff.1 h2
  have h1 := Pip.at_mono_le _ _ n (max n m) (Nat.le_max_left _ _) _ _ _ ha
  have h2 := Pip.at_mono_le _ _ m (max n m) (Nat.le_max_right _ _) _ _ _ hb
  rw [h1] at h2
  cases h2
  rfl

/-- A file that includes itself, and a cycle of two files. -/
def reqCycleFs (p : Str) : Option Str :=
  if p = g!"r/a.txt" then some g!"-r a.txt\n-r b.txt\nfoo==1\n"
  else if p = g!"r/b.txt" then some g!"-r ../r/a.txt\nbar\n" else none

example : (∀ p, reqCycleFs p ≠ none → p ∈ [g!"r/a.txt", g!"r/b.txt"]) ∧ Includes reqCycleFs g!"r/a.txt" g!"r/a.txt" ∧
    Includes reqCycleFs g!"r/a.txt" g!"r/b.txt" ∧ Includes reqCycleFs g!"r/b.txt" g!"r/a.txt" ∧
    parseRequirementsTxt reqCycleFs (fun _ _ l => l) 4 g!"r/a.txt" = some (some [pypi g!"bar" g!"0.0.0", pypi g!"foo" g!"1"]) := by
  refine ⟨?_, ⟨g!"a.txt", ?_, by decide⟩, ⟨g!"b.txt", ?_, by decide⟩, ⟨g!"../r/a.txt", ?_, by decide⟩, by decide +kernel⟩
  · intro p
    unfold reqCycleFs
    split
    · rename_i h; intro _; simp [h]
    · split
      · rename_i h; intro _; simp [h]
      · intro h; exact absurd rfl h
  · exact (Pip.fileLine_iff (content := g!"-r a.txt\n-r b.txt\nfoo==1\n") (by decide) _).2 ⟨g!"-r a.txt", by decide +kernel, by decide +kernel⟩
  · exact (Pip.fileLine_iff (content := g!"-r a.txt\n-r b.txt\nfoo==1\n") (by decide) _).2 ⟨g!"-r b.txt", by decide +kernel, by decide +kernel⟩
  · exact (Pip.fileLine_iff (content := g!"-r ../r/a.txt\nbar\n") (by decide) _).2 ⟨g!"-r ../r/a.txt", by decide +kernel, by decide +kernel⟩

end Osv
