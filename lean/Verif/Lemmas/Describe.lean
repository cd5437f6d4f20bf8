import Verif.Model.Describe
import Verif.Spec.Describe
import Verif.Lemmas.Str
/-! # Facts for descriptions -/
namespace Osv.Desc
open Osv Str Spec

theorem bytes_append (a b : Str) : utf8Bytes (a ++ b) = utf8Bytes a ++ utf8Bytes b := by simp [utf8Bytes]

theorem bytes_cons_length (c : Char) (s : Str) : (utf8Bytes (c :: s)).length = c.utf8Size + (utf8Bytes s).length := by
  simp [utf8Bytes]

theorem length_le_bytes (s : Str) : s.length ≤ (utf8Bytes s).length := by
  induction s with
  | nil => simp
  | cons c s ih =>
    rw [bytes_cons_length, List.length_cons]
    have := c.utf8Size_pos
    omega

theorem bytes_le (s : Str) : (utf8Bytes s).length ≤ 4 * s.length := by
  induction s with
  | nil => simp [utf8Bytes]
  | cons c s ih =>
    rw [bytes_cons_length, List.length_cons]
    have := c.utf8Size_le_four
    omega

theorem bytes_ascii (s : Str) (h : ∀ c ∈ s, c.utf8Size = 1) : (utf8Bytes s).length = s.length := by
  induction s with
  | nil => simp [utf8Bytes]
  | cons c s ih =>
    rw [bytes_cons_length, List.length_cons, ih fun d hd => h d (by simp [hd]), h c (by simp)]
    omega

theorem bytes_eq_nil {s : Str} : utf8Bytes s = [] ↔ s = [] := by
  constructor
  · intro h
    have := length_le_bytes s
    rw [h] at this
    cases s with
    | nil => rfl
    | cons c s => simp at this
  · rintro rfl; rfl

theorem takeBytes_prefix (a b : Str) : takeBytes (utf8Bytes a).length (utf8Bytes (a ++ b)) = some (utf8Bytes a) := by
  rw [bytes_append]
  simp [takeBytes]

/-- Where the last space is. -/
def LastSpace (s : Str) (at' : Option Nat) : Prop :=
  (at' = none ∧ ∀ c ∈ s, isSpace c = false) ∨
  ∃ pre sp mid, s = pre ++ sp :: mid ∧ isSpace sp = true ∧ (∀ c ∈ mid, isSpace c = false) ∧ at' = some (utf8Bytes pre).length

theorem lastSpace_snoc {s : Str} {a : Option Nat} (h : LastSpace s a) (c : Char) :
    LastSpace (s ++ [c]) (if isSpace c then some (utf8Bytes s).length else a) := by
  by_cases hc : isSpace c = true
  · rw [if_pos hc]
    exact .inr ⟨s, c, [], rfl, hc, by simp, rfl⟩
  · rw [if_neg hc]
    rcases h with ⟨rfl, h⟩ | ⟨pre, sp, mid, rfl, h1, h2, rfl⟩
    · refine .inl ⟨rfl, ?_⟩
      intro d hd
      rcases List.mem_append.1 hd with hd | hd
      · exact h d hd
      · simp at hd; subst hd; simpa using hc
    · refine .inr ⟨pre, sp, mid ++ [c], by simp, h1, ?_, rfl⟩
      intro d hd
      rcases List.mem_append.1 hd with hd | hd
      · exact h2 d hd
      · simp at hd; subst hd; simpa using hc

theorem loop {limit : Nat} : ∀ (rest done : Str) (a : Option Nat), done.length < limit → LastSpace done a →
    (done.length + rest.length < limit ∧ truncateLoop limit rest (utf8Bytes done).length done.length a = none) ∨
    (limit ≤ done.length + rest.length ∧ ∃ a', LastSpace ((done ++ rest).take limit) a' ∧
      truncateLoop limit rest (utf8Bytes done).length done.length a = some (a'.getD limit)) := by
  intro rest
  induction rest with
  | nil => intro done a h _; exact .inl ⟨by simpa using h, rfl⟩
  | cons c rest ih =>
    intro done a h ha
    have hs := lastSpace_snoc ha c
    simp only [truncateLoop]
    by_cases hl : done.length + 1 ≥ limit
    · rw [if_pos hl]
      refine .inr ⟨by simp; omega, _, ?_, rfl⟩
      have : (done ++ c :: rest).take limit = done ++ [c] := by
        rw [show done ++ c :: rest = (done ++ [c]) ++ rest by simp, List.take_left' (by simp; omega)]
      rw [this]
      exact hs
    · rw [if_neg hl]
      have := ih (done ++ [c]) _ (by simp; omega) hs
      have hb : (utf8Bytes (done ++ [c])).length = (utf8Bytes done).length + c.utf8Size := by
        rw [bytes_append, List.length_append, bytes_cons_length]; simp [utf8Bytes]
      simp only [hb, List.length_append, List.length_singleton, List.append_assoc, List.singleton_append] at this
      simp only [List.length_cons]
      rw [show done.length + (rest.length + 1) = done.length + 1 + rest.length by omega]
      exact this

/-- The three results of `truncate`. -/
theorem truncate_cases (s : Str) (limit : Nat) (hl : 0 < limit) :
    (s.length < limit ∧ truncate s limit = some (utf8Bytes s)) ∨
    (∃ pre sp mid post, s = pre ++ sp :: (mid ++ post) ∧ isSpace sp = true ∧ (∀ c ∈ mid, isSpace c = false) ∧
      pre.length + 1 + mid.length = limit ∧ truncate s limit = some (utf8Bytes (pre ++ g!"..."))) ∨
    (limit ≤ s.length ∧ (∀ c ∈ s.take limit, isSpace c = false) ∧
      truncate s limit = some ((utf8Bytes s).take limit ++ utf8Bytes g!"...")) := by
  unfold truncate
  rcases loop s [] none hl (.inl ⟨rfl, by simp⟩) with ⟨h1, h2⟩ | ⟨h1, a, ha, h2⟩
  · simp only [List.length_nil, Nat.zero_add] at h1
    rw [show (utf8Bytes []).length = 0 from rfl, List.length_nil] at h2
    exact .inl ⟨h1, by rw [h2]⟩
  · rw [show (utf8Bytes []).length = 0 from rfl, List.length_nil] at h2
    simp only [List.length_nil, Nat.zero_add, List.nil_append] at h1 ha
    rw [h2]
    rcases ha with ⟨rfl, h⟩ | ⟨pre, sp, mid, e, h3, h4, rfl⟩
    · refine .inr (.inr ⟨h1, h, ?_⟩)
      have : limit ≤ (utf8Bytes s).length := Nat.le_trans h1 (length_le_bytes s)
      simp [takeBytes, this]
    · have e' : s = pre ++ sp :: (mid ++ s.drop limit) := by
        have := List.take_append_drop limit s
        rw [e] at this
        simpa using this.symm
      refine .inr (.inl ⟨pre, sp, mid, s.drop limit, e', h3, h4, ?_, ?_⟩)
      · have := congrArg List.length e
        simp at this; omega
      · have := takeBytes_prefix pre (sp :: (mid ++ s.drop limit))
        rw [← e'] at this
        simp [this, bytes_append]

end Osv.Desc
