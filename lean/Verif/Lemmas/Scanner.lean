import Verif.Go.Scanner
import Verif.Lemmas.Str
/-! # Lines of a file -/
namespace Osv.Scanner
open Osv Str

/-- A line as `bufio.Scanner` can yield it: no newline, no carriage return at the end, and not too long. -/
structure LineOK (l : Str) : Prop where
  newline : '\n' ∉ l
  cr : ∀ t, l ≠ t ++ ['\r']
  short : byteLen l < maxToken

/-- A text made of the given lines. -/
def unlines (ls : List Str) : Str := ls.flatMap (· ++ ['\n'])

theorem splitChar_unlines (ls : List Str) (h : ∀ l ∈ ls, '\n' ∉ l) : splitChar '\n' (unlines ls) = ls ++ [[]] := by
  induction ls with
  | nil => rfl
  | cons l ls ih =>
    unfold unlines
    rw [List.flatMap_cons, List.append_assoc, List.singleton_append, splitChar_append _ _ _ (h l (by simp))]
    rw [show ls.flatMap (· ++ ['\n']) = unlines ls from rfl, ih (fun x hx => h x (by simp [hx]))]
    rfl

theorem dropCR_eq (l : Str) (h : ∀ t, l ≠ t ++ ['\r']) : dropCR l = l := by
  unfold dropCR trimSuffix
  rw [if_neg]
  rw [hasSuffix_iff]
  rintro ⟨t, ht⟩
  exact h t ht

theorem scanRaw_ok (ls : List Str) (h : ∀ l ∈ ls, LineOK l) : scanRaw ls = (ls, false) := by
  induction ls with
  | nil => rfl
  | cons l ls ih =>
    unfold scanRaw
    have hl := h l (by simp)
    rw [if_neg (by have := hl.short; omega), ih (fun x hx => h x (by simp [hx])), dropCR_eq _ hl.cr]

/-- Scanning a text made of lines gives these lines. -/
theorem scan_unlines (ls : List Str) (h : ∀ l ∈ ls, LineOK l) : scan (unlines ls) = (ls, false) := by
  unfold scan rawLines
  dsimp only
  rw [splitChar_unlines ls (fun l hl => (h l hl).newline)]
  simp only [List.getLast?_append, List.getLast?_singleton, Option.some_or, if_true, List.dropLast_concat]
  exact scanRaw_ok ls h

theorem scanRaw_mem (ls : List Str) (l : Str) (h : l ∈ (scanRaw ls).1) : ∃ r ∈ ls, l = dropCR r := by
  induction ls with
  | nil => cases h
  | cons r ls ih =>
    unfold scanRaw at h
    split at h
    · cases h
    · rcases List.mem_cons.1 h with rfl | h
      · exact ⟨r, by simp, rfl⟩
      · obtain ⟨r', hr', e⟩ := ih h
        exact ⟨r', by simp [hr'], e⟩

/-- Scanned lines contain no newline. -/
theorem scan_no_newline (content l : Str) (h : l ∈ (scan content).1) : '\n' ∉ l := by
  obtain ⟨r, hr, rfl⟩ := scanRaw_mem _ _ h
  have hr' : r ∈ splitChar '\n' content := by
    unfold rawLines at hr
    dsimp only at hr
    split at hr
    · exact List.dropLast_subset _ hr
    · exact hr
  have hn := not_mem_splitChar '\n' content r hr'
  unfold dropCR trimSuffix
  split
  · exact fun hm => hn (List.mem_of_mem_take hm)
  · exact hn

/-- The scan succeeds exactly if no line is too long. -/
theorem scan_ok_iff (content : Str) : (scan content).2 = false ↔ ∀ l ∈ rawLines content, byteLen l < maxToken := by
  unfold scan
  generalize rawLines content = ls
  induction ls with
  | nil => simp [scanRaw]
  | cons l ls ih =>
    unfold scanRaw
    split
    · rename_i h
      constructor
      · intro h'; cases h'
      · intro h'; have := h' l (by simp); omega
    · rename_i h
      simp only [ih, List.mem_cons, forall_eq_or_imp]
      exact ⟨fun h' => ⟨by omega, h'⟩, fun h' => h'.2⟩

end Osv.Scanner
