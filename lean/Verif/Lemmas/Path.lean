import Verif.Go.Path
import Verif.Lemmas.Str
/-! # Properties of `filepath.Clean` -/
namespace Osv.Path
open Osv Str

/-- A component that `Clean` keeps as it is. -/
def Plain (c : Str) : Prop := c ≠ [] ∧ c ≠ g!"." ∧ c ≠ g!".."

/-- The components of a cleaned path: a (possibly empty) run of `..` (only if not rooted), then plain ones. -/
def Normal (rooted : Bool) (cs : List Str) : Prop :=
  ∃ n ps, cs = List.replicate n g!".." ++ ps ∧ (rooted = true → n = 0) ∧ ∀ p ∈ ps, Plain p

/-- Stack of the component loop, innermost first. -/
def NormalStack (rooted : Bool) (acc : List Str) : Prop :=
  ∃ n ps, acc = ps ++ List.replicate n g!".." ∧ (rooted = true → n = 0) ∧ ∀ p ∈ ps, Plain p

theorem replicate_comm {α : Type} (n : Nat) (a : α) : a :: List.replicate n a = List.replicate n a ++ [a] := by
  rw [← List.replicate_succ, List.replicate_succ']

theorem cleanComps_normal (rooted : Bool) (cs acc : List Str) (h : NormalStack rooted acc) :
    Normal rooted (cleanComps rooted acc cs) := by
  induction cs generalizing acc with
  | nil =>
    obtain ⟨n, ps, rfl, hn, hp⟩ := h
    refine ⟨n, ps.reverse, by simp [cleanComps], hn, fun p hp' => hp p (by simpa using hp')⟩
  | cons c cs ih =>
    unfold cleanComps
    split
    · exact ih acc h
    · rename_i h1
      split
      · rename_i h2
        split
        · cases rooted
          · simp only [Bool.false_eq_true, if_false]
            exact ih _ ⟨1, [], rfl, by simp, by simp⟩
          · simp only [if_true]
            exact ih _ ⟨0, [], rfl, by simp, by simp⟩
        · rename_i a as
          obtain ⟨n, ps, he, hn, hp⟩ := h
          split
          · rename_i ha
            cases ps with
            | nil =>
              cases rooted with
              | true => rw [hn rfl] at he; simp at he
              | false =>
                refine ih _ ⟨n + 1, [], ?_, by simp, by simp⟩
                rw [List.nil_append, List.replicate_succ, he]; rfl
            | cons p ps =>
              rw [List.cons_append] at he
              cases he
              exact absurd ha (hp a (by simp)).2.2
          · rename_i ha
            cases ps with
            | nil =>
              cases n with
              | zero => simp at he
              | succ n => rw [List.nil_append, List.replicate_succ] at he; cases he; exact absurd rfl ha
            | cons p ps =>
              rw [List.cons_append] at he
              cases he
              exact ih _ ⟨n, ps, rfl, hn, fun q hq => hp q (by simp [hq])⟩
      · rename_i h2
        obtain ⟨n, ps, rfl, hn, hp⟩ := h
        refine ih _ ⟨n, c :: ps, rfl, hn, ?_⟩
        intro p hp'
        rcases List.mem_cons.1 hp' with rfl | hp'
        · exact ⟨fun h => h1 (.inl h), fun h => h1 (.inr h), h2⟩
        · exact hp p hp'

theorem cleanComps_plain (rooted : Bool) (ps acc : List Str) (hp : ∀ p ∈ ps, Plain p) :
    cleanComps rooted acc ps = acc.reverse ++ ps := by
  induction ps generalizing acc with
  | nil => simp [cleanComps]
  | cons p ps ih =>
    obtain ⟨h1, h2, h3⟩ := hp p (by simp)
    unfold cleanComps
    rw [if_neg (by simp [h1, h2]), if_neg h3, ih _ fun q hq => hp q (by simp [hq])]
    simp

theorem cleanComps_dots (n m : Nat) (ps : List Str) (hp : ∀ p ∈ ps, Plain p) :
    cleanComps false (List.replicate m g!"..") (List.replicate n g!".." ++ ps) =
      List.replicate (m + n) g!".." ++ ps := by
  induction n generalizing m with
  | zero => rw [List.replicate_zero, List.nil_append, cleanComps_plain _ _ _ hp]; simp
  | succ n ih =>
    rw [List.replicate_succ, List.cons_append]
    unfold cleanComps
    rw [if_neg (by decide), if_pos rfl]
    have hm : m + (n + 1) = (m + 1) + n := by omega
    rw [hm, ← ih (m + 1)]
    cases m with
    | zero => rfl
    | succ m => rfl

theorem cleanComps_of_normal (rooted : Bool) (cs : List Str) (h : Normal rooted cs) :
    cleanComps rooted [] cs = cs := by
  obtain ⟨n, ps, rfl, hn, hp⟩ := h
  cases rooted with
  | true => rw [hn rfl]; simpa using cleanComps_plain true ps [] hp
  | false => simpa using cleanComps_dots n 0 ps hp

theorem mem_cleanComps (rooted : Bool) (cs acc : List Str) (c : Str) (h : c ∈ cleanComps rooted acc cs) :
    c ∈ acc ∨ c ∈ cs ∨ c = g!".." := by
  induction cs generalizing acc with
  | nil => left; simpa [cleanComps] using h
  | cons d cs ih =>
    unfold cleanComps at h
    split at h
    · rcases ih _ h with h | h | h
      · exact .inl h
      · exact .inr (.inl (by simp [h]))
      · exact .inr (.inr h)
    · split at h
      · split at h
        · split at h
          · rcases ih _ h with h | h | h
            · cases h
            · exact .inr (.inl (by simp [h]))
            · exact .inr (.inr h)
          · rcases ih _ h with h | h | h
            · exact .inr (.inr (by simpa using h))
            · exact .inr (.inl (by simp [h]))
            · exact .inr (.inr h)
        · split at h
          · rcases ih _ h with h | h | h
            · rcases List.mem_cons.1 h with h | h
              · exact .inr (.inr h)
              · exact .inl h
            · exact .inr (.inl (by simp [h]))
            · exact .inr (.inr h)
          · rcases ih _ h with h | h | h
            · exact .inl (by simp [h])
            · exact .inr (.inl (by simp [h]))
            · exact .inr (.inr h)
      · rcases ih _ h with h | h | h
        · rcases List.mem_cons.1 h with rfl | h
          · exact .inr (.inl (by simp))
          · exact .inl h
        · exact .inr (.inl (by simp [h]))
        · exact .inr (.inr h)

theorem not_slash_cleanComps (rooted : Bool) (p : Str) : ∀ c ∈ cleanComps rooted [] (splitChar '/' p), '/' ∉ c := by
  intro c hc
  rcases mem_cleanComps rooted _ _ c hc with h | h | h
  · cases h
  · exact not_mem_splitChar '/' p c h
  · subst h; decide

/-- Cleaned components, joined, split into the same components again. -/
theorem splitChar_join_clean (rooted : Bool) (p : Str) (h : cleanComps rooted [] (splitChar '/' p) ≠ []) :
    splitChar '/' (join g!"/" (cleanComps rooted [] (splitChar '/' p))) = cleanComps rooted [] (splitChar '/' p) :=
  splitChar_join '/' _ h (not_slash_cleanComps rooted p)

theorem normal_head_ne (rooted : Bool) (cs : List Str) (h : Normal rooted cs) : ∀ c ∈ cs, c ≠ [] := by
  obtain ⟨n, ps, rfl, _, hp⟩ := h
  intro c hc
  rcases List.mem_append.1 hc with hc | hc
  · rw [(List.mem_replicate.1 hc).2]; decide
  · exact (hp c hc).1

theorem join_head (sep : Str) (c : Str) (cs : List Str) : ∃ t, join sep (c :: cs) = c ++ t := by
  cases cs with
  | nil => exact ⟨[], by simp [join]⟩
  | cons d cs => exact ⟨sep ++ join sep (d :: cs), by simp [join]⟩

/-- Cleaning a cleaned path changes nothing. -/
theorem clean_idem (p : Str) : clean (clean p) = clean p := by
  have hroot := cleanComps_normal true (splitChar '/' p) [] ⟨0, [], rfl, by simp, by simp⟩
  have hrel := cleanComps_normal false (splitChar '/' p) [] ⟨0, [], rfl, by simp, by simp⟩
  unfold clean
  by_cases h0 : p = []
  · subst h0; decide
  · rw [if_neg h0]
    by_cases h1 : p.head? = some '/'
    · rw [if_pos h1]
      rw [if_neg (by simp), if_pos (by simp)]
      congr 2
      by_cases hc : cleanComps true [] (splitChar '/' p) = []
      · rw [hc]; decide
      · have hs : splitChar '/' ('/' :: join g!"/" (cleanComps true [] (splitChar '/' p))) =
            [] :: cleanComps true [] (splitChar '/' p) := by
          have := splitChar_append '/' [] (join g!"/" (cleanComps true [] (splitChar '/' p))) (by simp)
          rw [List.nil_append] at this
          rw [this, splitChar_join_clean true p hc]
        rw [hs, cleanComps, if_pos (.inl rfl), cleanComps_of_normal true _ hroot]
    · rw [if_neg h1]
      dsimp only
      by_cases hc : cleanComps false [] (splitChar '/' p) = []
      · rw [hc]; decide
      · have hj : join g!"/" (cleanComps false [] (splitChar '/' p)) ≠ [] ∧
            (join g!"/" (cleanComps false [] (splitChar '/' p))).head? ≠ some '/' := by
          cases hcs : cleanComps false [] (splitChar '/' p) with
          | nil => exact absurd hcs hc
          | cons c cs =>
            have hne : c ≠ [] := normal_head_ne false _ hrel c (by rw [hcs]; simp)
            have hsl : '/' ∉ c := not_slash_cleanComps false p c (by rw [hcs]; simp)
            obtain ⟨t, ht⟩ := join_head g!"/" c cs
            rw [ht]
            cases c with
            | nil => exact absurd rfl hne
            | cons a c =>
              refine ⟨by simp, ?_⟩
              intro h
              simp only [List.cons_append, List.head?_cons, Option.some.injEq] at h
              subst h
              simp at hsl
        rw [if_neg hj.1, if_neg hj.1, if_neg hj.2, splitChar_join_clean false p hc, cleanComps_of_normal false _ hrel,
          if_neg hj.1]

theorem clean_ne_nil (p : Str) : clean p ≠ [] := by
  unfold clean
  split
  · decide
  · split
    · simp
    · dsimp only
      split
      · decide
      · assumption

end Osv.Path
