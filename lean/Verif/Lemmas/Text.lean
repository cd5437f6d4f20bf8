import Verif.Spec.Text
import Verif.Lemmas.Str
/-! # Lemmas on trimming and cutting -/
namespace Osv
open Str Spec

theorem dropWhile_split (p : Char → Bool) (s : Str) :
    ∃ a, s = a ++ s.dropWhile p ∧ (∀ c ∈ a, p c = true) ∧ (∀ c ∈ (s.dropWhile p).head?, p c = false) := by
  induction s with
  | nil => exact ⟨[], rfl, by simp, by simp⟩
  | cons c s ih =>
    by_cases h : p c = true
    · obtain ⟨a, e, h1, h2⟩ := ih
      rw [List.dropWhile_cons, if_pos h]
      refine ⟨c :: a, by rw [List.cons_append, ← e], ?_, h2⟩
      intro d hd
      rcases List.mem_cons.1 hd with rfl | hd
      · exact h
      · exact h1 d hd
    · rw [List.dropWhile_cons, if_neg h]
      exact ⟨[], rfl, by simp, by simpa using h⟩

theorem dropRight_split (p : Char → Bool) (s : Str) :
    ∃ b, s = dropRight p s ++ b ∧ (∀ c ∈ b, p c = true) ∧ (∀ c ∈ (dropRight p s).getLast?, p c = false) := by
  obtain ⟨a, e, h1, h2⟩ := dropWhile_split p s.reverse
  refine ⟨a.reverse, ?_, by simpa using h1, ?_⟩
  · unfold dropRight
    rw [← List.reverse_append, ← e, List.reverse_reverse]
  · unfold dropRight
    rwa [List.getLast?_reverse]

theorem trimPrefix_of_not {s p : Str} (h : ∀ u, s ≠ p ++ u) : trimPrefix s p = s := by
  unfold trimPrefix
  rw [if_neg (fun h' => (by obtain ⟨u, hu⟩ := (hasPrefix_iff _ _).1 h'; exact h u hu))]

theorem trimSuffix_of_not {s p : Str} (h : ∀ u, s ≠ u ++ p) : trimSuffix s p = s := by
  unfold trimSuffix
  rw [if_neg (fun h' => (by obtain ⟨u, hu⟩ := (hasSuffix_iff _ _).1 h'; exact h u hu))]

theorem getLast?_append_ne {α : Type} (s t : List α) (h : t ≠ []) : (s ++ t).getLast? = t.getLast? := by
  rw [List.getLast?_append]
  cases t with
  | nil => exact absurd rfl h
  | cons a t => simp [List.getLast?_cons]

theorem trimSpace_trimmed (s : Str) : Trimmed s (trimSpace s) := by
  unfold trimSpace trimFunc
  obtain ⟨a, ea, ha, hh⟩ := dropWhile_split isSpace s
  obtain ⟨b, eb, hb, hl⟩ := dropRight_split isSpace (s.dropWhile isSpace)
  refine ⟨a, b, by rw [List.append_assoc, ← eb, ← ea], ha, hb, ?_, hl⟩
  intro c hc
  apply hh
  rw [eb]
  cases h : dropRight isSpace (List.dropWhile isSpace s) with
  | nil => rw [h] at hc; cases hc
  | cons d t => rw [h] at hc; simpa using hc

theorem trimSpace_of_trimmed {s t : Str} (h : Trimmed s t) : trimSpace s = t := by
  obtain ⟨a, b, rfl, ha, hb, hh, hl⟩ := h
  unfold trimSpace trimFunc
  rw [List.append_assoc, dropWhile_all_append _ _ _ (List.all_eq_true.2 ha)]
  cases t with
  | nil =>
    have : (b : Str).dropWhile isSpace = [] := by
      have := dropWhile_all_append isSpace b [] (List.all_eq_true.2 hb)
      simpa using this
    rw [List.nil_append, this]; rfl
  | cons d t =>
    rw [dropWhile_self _ _ (by simpa using hh), dropRight_append _ _ _ (List.all_eq_true.2 hb), dropRight_all _ _ hl]

theorem trimSpace_iff {s t : Str} : trimSpace s = t ↔ Trimmed s t :=
  ⟨fun h => h ▸ trimSpace_trimmed s, trimSpace_of_trimmed⟩

/-- Text without white space at its ends is not changed by trimming. -/
theorem trimSpace_id {s : Str} (hh : ∀ c ∈ s.head?, isSpace c = false) (hl : ∀ c ∈ s.getLast?, isSpace c = false) :
    trimSpace s = s :=
  trimSpace_of_trimmed ⟨[], [], by simp, by simp [Blank], by simp [Blank], hh, hl⟩

theorem cut_char_fst_iff {c : Char} {s p : Str} : (cut s [c]).1 = p ↔ Before c s p := by
  constructor
  · rintro rfl
    unfold cut
    cases h : cut? [c] s with
    | none =>
      refine ⟨?_, Or.inl rfl⟩
      intro hm
      obtain ⟨a, b, e⟩ := List.append_of_mem hm
      exact cut?_none_iff.1 h a b (by simpa using e)
    | some r =>
      obtain ⟨a, b⟩ := r
      have e := cut?_some h
      refine ⟨?_, Or.inr ⟨b, by simpa using e⟩⟩
      have := cut?_first h
      intro hm
      obtain ⟨x, y, e'⟩ := List.append_of_mem hm
      have e'' : a = x ++ c :: y := e'
      have hh := this x (y ++ [c] ++ b) (by rw [e, e'']; simp)
      rw [e''] at hh
      simp at hh
      omega
  · rintro ⟨hn, rfl | ⟨r, rfl⟩⟩
    · rw [cut_char_none _ _ hn]
    · rw [cut_char _ _ _ hn]

theorem entries_filterMap {α β : Type} (f : α → Option β) (as : List α) :
    Entries (fun a b => f a = some b) as (as.filterMap f) := by
  induction as with
  | nil => exact .nil
  | cons a as ih =>
    cases h : f a with
    | none => rw [List.filterMap_cons_none h]; exact .skip (by simp [h]) ih
    | some b => rw [List.filterMap_cons_some h]; exact .keep h ih

theorem entries_mono {α β : Type} {e e' : α → β → Prop} (h : ∀ a b, e a b ↔ e' a b) {as : List α} {bs : List β}
    (hE : Entries e as bs) : Entries e' as bs := by
  induction hE with
  | nil => exact .nil
  | keep ha _ ih => exact .keep ((h _ _).1 ha) ih
  | skip ha _ ih => exact .skip (fun b hb => ha b ((h _ _).2 hb)) ih

/-- There is only one list of entries if an item has at most one. -/
theorem entries_unique {α β : Type} {e : α → β → Prop} (hu : ∀ a b b', e a b → e a b' → b = b') {as : List α}
    {bs bs' : List β} (h : Entries e as bs) (h' : Entries e as bs') : bs = bs' := by
  induction h generalizing bs' with
  | nil => cases h'; rfl
  | keep ha _ ih =>
    cases h' with
    | keep ha' h' => rw [hu _ _ _ ha ha', ih h']
    | skip hn _ => exact absurd ha (hn _)
  | skip hn _ ih =>
    cases h' with
    | keep ha' _ => exact absurd ha' (hn _)
    | skip _ h' => exact ih h'

/-- A fold that appends the outcome of each item is a `filterMap`. -/
theorem foldl_append_filterMap {α β : Type} (f : α → Option β) (step : List β → α → List β)
    (h : ∀ acc a, step acc a = acc ++ (f a).toList) (as : List α) (acc : List β) :
    as.foldl step acc = acc ++ as.filterMap f := by
  induction as generalizing acc with
  | nil => simp
  | cons a as ih =>
    rw [List.foldl_cons, ih, h]
    cases hf : f a <;> simp [hf]

end Osv
