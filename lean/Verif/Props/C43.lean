import Verif.Lemmas.Pip
/-! # C43: line continuations and comments of requirements.txt -/
namespace Osv
open Str Spec

/-- A line is continued exactly when it ends in an odd number of backslashes. -/
theorem C43_continuation (l : Str) : isLineContinuation l = true ↔ OddBackslashes l := Pip.continuation_iff l

/-- Joining gives exactly the joined lines, for every list of lines. -/
theorem C43_joined (ls js : List Str) : joinLines ls = js ↔ Joined ls js :=
  ⟨fun h => h ▸ Pip.joined ls, fun h => Pip.joined_unique (Pip.joined ls) h⟩

/-- At the end of the file the loop ends after at most one round: its condition is false then. -/
theorem C43_end_of_file (n : Nat) (l : Str) :
    isLineContinuation (continueAtEnd (n + 1) l) = false ∧ continueAtEnd (n + 1) l = continueAtEnd 1 l := by
  by_cases h : OddBackslashes l
  · obtain ⟨u, rfl⟩ := Pip.odd_snoc h
    rw [Pip.continueAtEnd_odd _ _ h, Pip.continueAtEnd_odd _ _ h]
    refine ⟨?_, rfl⟩
    rw [Bool.eq_false_iff, ne_eq, Pip.continuation_iff]
    exact Pip.odd_trim h
  · rw [Pip.continueAtEnd_plain _ _ h, Pip.continueAtEnd_plain _ _ h]
    refine ⟨?_, rfl⟩
    rw [Bool.eq_false_iff, ne_eq, Pip.continuation_iff]
    exact h

/-- A comment is removed exactly from the first `#` that starts the line or follows white space. -/
theorem C43_comment (l t : Str) (h : '\n' ∉ l) : removeComments l = t ↔ Uncommented l t :=
  ⟨fun e => e ▸ Pip.uncommented l h, fun h' => Pip.uncommented_unique (Pip.uncommented l h) h'⟩

/-- The lines of a file: joined, then each without its comment. -/
theorem C43_file (content : Str) :
    ∃ js, Joined (Scanner.scan content).1 js ∧ joinLines (Scanner.scan content).1 = js ∧
      ∀ j ∈ js, Uncommented j (removeComments j) := by
  refine ⟨_, Pip.joined _, rfl, fun j hj => Pip.uncommented j ?_⟩
  exact Pip.joined_no_newline (Pip.joined _) (fun l hl => Scanner.scan_no_newline content l hl) j hj

/-- Lines that are continued and lines that are not. -/
example : OddBackslashes g!"foo\\\\\\" ∧ ¬ OddBackslashes g!"foo\\\\" := by
  refine ⟨⟨g!"foo", 1, rfl, ?_⟩, ?_⟩
  · intro u e
    have := congrArg List.getLast? e
    simp at this
  · rw [← C43_continuation]; decide

/-- A comment after white space is removed, a fragment is not. -/
example : '\n' ∉ g!"a#b #c #d" ∧ Uncommented g!"a#b #c #d" g!"a#b" := by
  refine ⟨by decide, (C43_comment _ _ (by decide)).1 (by decide +kernel)⟩

end Osv
