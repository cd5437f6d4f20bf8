import Verif.Model.Main
import Verif.Lemmas.Paths
/-!
# C31 Database identifiers distinguish different databases

False in general: the parts of an identifier are joined with `#`, which may occur in a URL.
-/
namespace Osv
open Str

/-- The full property. -/
def C31_full : Prop := ∀ c d : DBConfig, c.identifier = d.identifier →
  c.type = d.type ∧ c.url = d.url ∧ c.workingDirectory = d.workingDirectory

/-- A string without `#` in front of a rest that is empty or starts with `#` is determined by the whole. -/
theorem append_hash_inj (u v s t : Str) (hu : '#' ∉ u) (hv : '#' ∉ v)
    (hs : s = [] ∨ ∃ s', s = '#' :: s') (ht : t = [] ∨ ∃ t', t = '#' :: t') (h : u ++ s = v ++ t) : u = v ∧ s = t := by
  induction u generalizing v with
  | nil =>
    cases v with
    | nil => exact ⟨rfl, h⟩
    | cons b v =>
      rcases hs with rfl | ⟨s', rfl⟩
      · simp at h
      · simp only [List.nil_append, List.cons_append, List.cons.injEq] at h
        exact absurd (by rw [h.1]; simp) hv
  | cons a u ih =>
    cases v with
    | nil =>
      rcases ht with rfl | ⟨t', rfl⟩
      · simp at h
      · simp only [List.nil_append, List.cons_append, List.cons.injEq] at h
        exact absurd (by rw [h.1]; simp) hu
    | cons b v =>
      simp only [List.cons_append, List.cons.injEq] at h
      obtain ⟨rfl, h⟩ := h
      obtain ⟨rfl, h2⟩ := ih v (fun hm => hu (List.mem_cons_of_mem _ hm)) (fun hm => hv (List.mem_cons_of_mem _ hm)) h
      exact ⟨rfl, h2⟩

theorem identifier_eq (c : DBConfig) : c.identifier = c.type ++ ('#' :: (c.url ++
    (if c.workingDirectory = [] then [] else '#' :: c.workingDirectory))) := by
  unfold DBConfig.identifier
  dsimp only
  by_cases h : c.workingDirectory = [] <;> simp [h]

/-- Configs whose type and URL contain no `#` are distinguished. -/
theorem C31_no_hash_partial (c d : DBConfig) (hct : '#' ∉ c.type) (hdt : '#' ∉ d.type) (hcu : '#' ∉ c.url) (hdu : '#' ∉ d.url)
    (h : c.identifier = d.identifier) :
    c.type = d.type ∧ c.url = d.url ∧ c.workingDirectory = d.workingDirectory := by
  rw [identifier_eq, identifier_eq] at h
  obtain ⟨h1, h2⟩ := append_hash_inj _ _ _ _ hct hdt (.inr ⟨_, rfl⟩) (.inr ⟨_, rfl⟩) h
  simp only [List.cons.injEq, true_and] at h2
  have sh : ∀ w : Str, (if w = [] then [] else '#' :: w) = [] ∨ ∃ s', (if w = [] then [] else '#' :: w) = '#' :: s' := by
    intro w
    by_cases hw : w = []
    · exact .inl (if_pos hw)
    · exact .inr ⟨w, if_neg hw⟩
  obtain ⟨h3, h4⟩ := append_hash_inj _ _ _ _ hcu hdu (sh _) (sh _) h2
  refine ⟨h1, h3, ?_⟩
  by_cases hw : c.workingDirectory = [] <;> by_cases hw' : d.workingDirectory = []
  · rw [hw, hw']
  · rw [if_pos hw, if_neg hw'] at h4; cases h4
  · rw [if_neg hw, if_pos hw'] at h4; cases h4
  · rw [if_neg hw, if_neg hw'] at h4
    injection h4

/-- Every database the program loads from a config has a type without `#`, so only the URL matters. -/
theorem C31_loaded_partial (v : Str → Bool) (a b : RawDB) (c d : DBConfig) (ha : a.toConfig v = .ok c) (hb : b.toConfig v = .ok d)
    (hcu : '#' ∉ a.url) (hdu : '#' ∉ b.url) (h : c.identifier = d.identifier) :
    c.type = d.type ∧ c.url = d.url ∧ c.workingDirectory = d.workingDirectory := by
  have key : ∀ (a : RawDB) (c : DBConfig), a.toConfig v = .ok c → '#' ∉ c.type ∧ c.url = a.url := by
    intro a c ha
    unfold RawDB.toConfig at ha
    split at ha
    · cases ha
    · dsimp only at ha
      split at ha
      · cases ha
      · rename_i ht
        have hc : ∀ x : DBConfig, x.type = a.inferType → '#' ∉ x.type := by
          intro x hx
          rw [hx]
          by_cases h1 : a.inferType = g!"zip"
          · rw [h1]; decide
          · by_cases h2 : a.inferType = g!"api"
            · rw [h2]; decide
            · by_cases h3 : a.inferType = g!"dir"
              · rw [h3]; decide
              · exact absurd ⟨h1, h2, h3⟩ ht
        split at ha <;> (cases ha; exact ⟨hc _ rfl, rfl⟩)
  obtain ⟨h1, h2⟩ := key a c ha
  obtain ⟨h3, h4⟩ := key b d hb
  exact C31_no_hash_partial c d h1 h3 (h2 ▸ hcu) (h4 ▸ hdu) h

/-- The end of an identifier says which working directory there is. -/
theorem identifier_end_inj {u v : Str} (h : (if u = [] then [] else '#' :: u) = (if v = [] then [] else '#' :: v)) : u = v := by
  by_cases hw : u = [] <;> by_cases hw' : v = []
  · rw [hw, hw']
  · rw [if_pos hw, if_neg hw'] at h; cases h
  · rw [if_neg hw, if_pos hw'] at h; cases h
  · rw [if_neg hw, if_neg hw'] at h
    injection h

/-- The working directory of `c` is all that follows the URL of `c` and a `#` in the URL and working directory of `d`. -/
def Straddles (c d : DBConfig) : Prop := ∃ x, d.url = c.url ++ g!"#" ++ x ∧
  ((d.workingDirectory = [] ∧ c.workingDirectory = x ∧ x ≠ []) ∨
    (d.workingDirectory ≠ [] ∧ c.workingDirectory = x ++ g!"#" ++ d.workingDirectory))

/-- The exact condition: apart from equal databases, identifiers are shared exactly if the URL of one database goes on with a
`#` and the beginning of the working directory of the other. -/
theorem C31_iff (c d : DBConfig) (hct : '#' ∉ c.type) (hdt : '#' ∉ d.type) :
    c.identifier = d.identifier ↔ c.type = d.type ∧
      ((c.url = d.url ∧ c.workingDirectory = d.workingDirectory) ∨ Straddles c d ∨ Straddles d c) := by
  have hx : ∀ c d : DBConfig, (∃ t, t ≠ [] ∧ d.url = c.url ++ t ∧
      (if c.workingDirectory = [] then [] else '#' :: c.workingDirectory) =
        t ++ (if d.workingDirectory = [] then [] else '#' :: d.workingDirectory)) ↔ Straddles c d := by
    intro c d
    constructor
    · rintro ⟨t, ht, e1, e2⟩
      cases t with
      | nil => exact absurd rfl ht
      | cons b t =>
        by_cases hc : c.workingDirectory = []
        · rw [if_pos hc] at e2; cases e2
        · rw [if_neg hc, List.cons_append] at e2
          injection e2 with e2 e3
          subst e2
          refine ⟨t, by simp [e1], ?_⟩
          by_cases hd : d.workingDirectory = []
          · rw [if_pos hd, List.append_nil] at e3
            exact .inl ⟨hd, e3, e3 ▸ hc⟩
          · rw [if_neg hd] at e3
            exact .inr ⟨hd, by simp [e3]⟩
    · rintro ⟨x, e1, h⟩
      refine ⟨'#' :: x, by simp, by simp [e1], ?_⟩
      rcases h with ⟨h1, h2, h3⟩ | ⟨h1, h2⟩
      · rw [if_pos h1, h2, if_neg h3, List.append_nil]
      · rw [if_neg h1, h2, if_neg (by simp)]; simp
  rw [identifier_eq, identifier_eq, ← hx c d, ← hx d c]
  constructor
  · intro h
    obtain ⟨h1, h2⟩ := append_hash_inj _ _ _ _ hct hdt (.inr ⟨_, rfl⟩) (.inr ⟨_, rfl⟩) h
    simp only [List.cons.injEq, true_and] at h2
    refine ⟨h1, ?_⟩
    rcases List.append_eq_append_iff.1 h2 with ⟨t, e1, e2⟩ | ⟨t, e1, e2⟩
    · by_cases ht : t = []
      · subst ht
        exact .inl ⟨by rw [e1, List.append_nil], identifier_end_inj (by simpa using e2)⟩
      · exact .inr (.inl ⟨t, ht, e1, e2⟩)
    · by_cases ht : t = []
      · subst ht
        exact .inl ⟨by rw [e1, List.append_nil], (identifier_end_inj (by simpa using e2)).symm⟩
      · exact .inr (.inr ⟨t, ht, e1, e2⟩)
  · rintro ⟨h1, ⟨h2, h3⟩ | ⟨t, _, e1, e2⟩ | ⟨t, _, e1, e2⟩⟩
    · rw [h1, h2, h3]
    · rw [h1, e2, e1]; simp
    · rw [h1, e2, e1]; simp

/-- Two different databases with the same identifier: a working directory against a URL fragment. -/
theorem C31_fragment_counterexample : ¬ C31_full := by
  intro h
  have := h ⟨g!"x", g!"zip", g!"https://e.org/all.zip#sub", []⟩ ⟨g!"y", g!"zip", g!"https://e.org/all.zip", g!"sub"⟩ (by decide)
  exact absurd this.2.1 (by decide)

example : Straddles ⟨g!"y", g!"zip", g!"https://e.org/all.zip", g!"sub"⟩ ⟨g!"x", g!"zip", g!"https://e.org/all.zip#sub", []⟩ :=
  ⟨g!"sub", rfl, .inl ⟨rfl, rfl, by decide⟩⟩
example : '#' ∉ apiDBConfig.type ∧ '#' ∉ apiDBConfig.url ∧ apiDBConfig.identifier ≠ (ecosystemDBConfig g!"npm").identifier := by decide

end Osv
