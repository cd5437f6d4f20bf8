import Verif.Model.LockYarn
import Verif.Spec.Yarn
import Verif.Lemmas.Text
/-!
# C45: yarn.lock package names
-/
namespace Osv
open Str Spec

namespace Yarn

theorem contains_char_iff (s : Str) (c : Char) : contains s [c] = true ↔ c ∈ s := by
  rw [contains_iff]
  constructor
  · rintro ⟨a, b, rfl⟩; simp
  · intro h
    obtain ⟨a, b, e⟩ := List.append_of_mem h
    exact ⟨a, b, by rw [e]; simp⟩

theorem name_no_comma {n : Str} (h : YarnName n) : ',' ∉ n := by
  obtain ⟨base, h1 | h1, _, _, h2, _⟩ := h
  · rw [h1]; exact h2
  · rw [h1]; simp [h2]

theorem describes_no_comma {d n : Str} (h : Describes d n) : ',' ∉ d := by
  induction h with
  | range n r hn hr _ => simp [name_no_comma hn, hr]
  | alias a d n ha _ ih => simp [name_no_comma ha, ih]

theorem describes_at {d n : Str} (h : Describes d n) : '@' ∈ d := by
  cases h with
  | range n r => simp
  | alias a d n => simp

theorem describes_head {d n : Str} (h : Describes d n) : ∀ t, d ≠ '"' :: t := by
  have key : ∀ (m r : Str), YarnName m → ∀ t, m ++ '@' :: r ≠ '"' :: t := by
    rintro m r ⟨base, h1, hne, _, _, h3⟩ t e
    cases m with
    | nil => rcases h1 with h1 | h1 <;> simp at h1; exact hne h1
    | cons c m => simp at e; exact h3 m (by rw [e.1])
  cases h with
  | range n r hn => exact key n r hn
  | alias a d n ha => intro t e; exact key a (g!"npm:" ++ d) ha t (by simpa using e)

/-- After the quote and the first comma are dealt with, the name is cut off at the `@` that ends it. -/
theorem extract_name (m r : Str) (hm : YarnName m) :
    (cut (cutPrefix (m ++ '@' :: r) g!"@").1 g!"@").2 = r ∧
    (if (cutPrefix (m ++ '@' :: r) g!"@").2 then g!"@" ++ (cut (cutPrefix (m ++ '@' :: r) g!"@").1 g!"@").1
      else (cut (cutPrefix (m ++ '@' :: r) g!"@").1 g!"@").1) = m := by
  obtain ⟨base, h1, hne, hat, _, _⟩ := hm
  rcases h1 with rfl | rfl
  · have : cutPrefix (m ++ '@' :: r) g!"@" = (m ++ '@' :: r, false) := by
      unfold cutPrefix
      rw [if_neg]
      intro h
      obtain ⟨t, ht⟩ := (hasPrefix_iff _ _).1 h
      cases m with
      | nil => exact hne rfl
      | cons c m => simp at ht; exact hat (by rw [ht.1]; simp)
    rw [this]
    dsimp only
    rw [cut_char _ _ _ hat]
    exact ⟨rfl, rfl⟩
  · have : cutPrefix ('@' :: base ++ '@' :: r) g!"@" = (base ++ '@' :: r, true) := by
      unfold cutPrefix
      rw [if_pos ((hasPrefix_iff ('@' :: base ++ '@' :: r) g!"@").2 ⟨base ++ '@' :: r, rfl⟩)]
      rfl
    rw [this]
    dsimp only
    rw [cut_char _ _ _ hat]
    exact ⟨rfl, rfl⟩

theorem extract_eq (str : Str) : extractYarnPackageName str =
    let s2 := (cut (trimPrefix str g!"\"") g!",").1
    let s3 := cutPrefix s2 g!"@"
    let nr := cut s3.1 g!"@"
    if hasPrefix nr.2 g!"npm:" && contains nr.2 g!"@" then extractYarnPackageName (trimPrefix nr.2 g!"npm:")
    else if s3.2 then g!"@" ++ nr.1 else nr.1 := by
  rw [extractYarnPackageName]

/-- Text after the descriptor that does not matter. -/
theorem extract_tail {d n : Str} (h : Describes d n) :
    ∀ (q e more : Str), Maybe ['"'] q → '@' ∉ e → ',' ∉ e → (more = [] ∨ ∃ u, more = ',' :: u) →
      extractYarnPackageName (q ++ d ++ e ++ more) = n := by
  induction h with
  | range n r hn hr hnpm =>
    intro q e more hq he he' hmore
    have hd : Describes (n ++ '@' :: r) n := .range n r hn hr hnpm
    have h1 : trimPrefix (q ++ (n ++ '@' :: r) ++ e ++ more) g!"\"" = n ++ '@' :: (r ++ e) ++ more := by
      rcases hq with rfl | rfl
      · rw [trimPrefix_of_not]
        · simp
        · intro u hu
          cases n with
          | nil =>
            obtain ⟨base, h1, hne, _⟩ := hn
            rcases h1 with h1 | h1 <;> simp at h1
            exact hne h1
          | cons c n => simp at hu; exact describes_head hd (n ++ '@' :: r) (by simp [hu.1])
      · rw [show ['"'] ++ (n ++ '@' :: r) ++ e ++ more = g!"\"" ++ (n ++ '@' :: (r ++ e) ++ more) by simp, trimPrefix_append]
    have h2 : (cut (n ++ '@' :: (r ++ e) ++ more) g!",").1 = n ++ '@' :: (r ++ e) := by
      apply cut_char_fst_iff.2
      refine ⟨by simp [name_no_comma hn, hr, he'], ?_⟩
      rcases hmore with rfl | ⟨u, rfl⟩
      · exact Or.inl (by simp)
      · exact Or.inr ⟨u, rfl⟩
    obtain ⟨e1, e2⟩ := extract_name n (r ++ e) hn
    rw [extract_eq]
    dsimp only
    rw [h1, h2, e1, if_neg, e2]
    intro hc
    simp only [Bool.and_eq_true] at hc
    obtain ⟨t, ht⟩ := (hasPrefix_iff _ _).1 hc.1
    have hat : '@' ∈ r := by
      have := (contains_char_iff _ _).1 hc.2
      rcases List.mem_append.1 this with h | h
      · exact h
      · exact absurd h he
    rcases List.append_eq_append_iff.1 ht with ⟨a, h3, h4⟩ | ⟨a, h3, h4⟩
    · -- `npm:` is at least as long as `r`, which has an `@`
      have : '@' ∈ g!"npm:" := by rw [h3]; simp [hat]
      exact absurd this (by decide)
    · apply hnpm a h3
      rw [h3] at hat
      rcases List.mem_append.1 hat with h | h
      · exact absurd h (by decide)
      · exact h
  | alias a d n ha hd ih =>
    intro q e more hq he he' hmore
    have h1 : trimPrefix (q ++ (a ++ g!"@npm:" ++ d) ++ e ++ more) g!"\"" = a ++ '@' :: (g!"npm:" ++ d ++ e) ++ more := by
      rcases hq with rfl | rfl
      · rw [trimPrefix_of_not]
        · simp
        · intro u hu
          obtain ⟨base, h1, hne, _, _, h3⟩ := ha
          cases a with
          | nil => rcases h1 with h1 | h1 <;> simp at h1; exact hne h1
          | cons c a => simp at hu; exact h3 a (by rw [hu.1])
      · rw [show ['"'] ++ (a ++ g!"@npm:" ++ d) ++ e ++ more = g!"\"" ++ (a ++ '@' :: (g!"npm:" ++ d ++ e) ++ more) by simp, trimPrefix_append]
    have h2 : (cut (a ++ '@' :: (g!"npm:" ++ d ++ e) ++ more) g!",").1 = a ++ '@' :: (g!"npm:" ++ d ++ e) := by
      apply cut_char_fst_iff.2
      refine ⟨by simp [name_no_comma ha, describes_no_comma hd, he'], ?_⟩
      rcases hmore with rfl | ⟨u, rfl⟩
      · exact Or.inl (by simp)
      · exact Or.inr ⟨u, rfl⟩
    obtain ⟨e1, _⟩ := extract_name a (g!"npm:" ++ d ++ e) ha
    rw [extract_eq]
    dsimp only
    rw [h1, h2, e1, if_pos, List.append_assoc, trimPrefix_append]
    · have := ih [] e [] (Or.inl rfl) he he' (Or.inl rfl)
      simpa using this
    · rw [Bool.and_eq_true]
      exact ⟨(hasPrefix_iff _ _).2 ⟨d ++ e, by simp⟩, (contains_char_iff _ _).2 (by simp [describes_at hd])⟩

end Yarn

/-- The name of a block is that of its first descriptor: for quoted, unquoted and multi-range headers, scoped or not, and
through any number of aliases. -/
theorem C45_names (h d n : Str) (hh : YarnHeader h d) (hd : Describes d n) : extractYarnPackageName h = n := by
  obtain ⟨q, e, more, hq, he, hmore, rfl⟩ := hh
  apply Yarn.extract_tail hd q e more hq _ _ hmore
  · rcases he with rfl | rfl | rfl | rfl <;> decide
  · rcases he with rfl | rfl | rfl | rfl <;> decide

/-- A descriptor has only one name. -/
theorem C45_unique (d n m : Str) (hn : Describes d n) (hm : Describes d m) : n = m := by
  have hh : YarnHeader d d := ⟨[], [], [], Or.inl rfl, Or.inl rfl, Or.inl rfl, by simp⟩
  rw [← C45_names d d n hh hn, C45_names d d m hh hm]

/-- Descriptors of each kind: plain, scoped, and an alias of a scoped package. -/
example : Describes g!"foo@^1.0.0" g!"foo" ∧ Describes g!"@babel/core@npm:^7.0.0" g!"@babel/core" ∧
    Describes g!"my-alias@npm:@scope/pkg@npm:^2.0.0" g!"@scope/pkg" := by
  refine ⟨.range g!"foo" g!"^1.0.0" ⟨g!"foo", Or.inl rfl, by decide, by decide, by decide, ?_⟩ (by decide) ?_,
    .range g!"@babel/core" g!"npm:^7.0.0" ⟨g!"babel/core", Or.inr rfl, by decide, by decide, by decide, ?_⟩ (by decide) ?_,
    .alias g!"my-alias" g!"@scope/pkg@npm:^2.0.0" _ ⟨g!"my-alias", Or.inl rfl, by decide, by decide, by decide, ?_⟩
      (.range g!"@scope/pkg" g!"npm:^2.0.0" ⟨g!"scope/pkg", Or.inr rfl, by decide, by decide, by decide, ?_⟩ (by decide) ?_)⟩
  all_goals first
    | (intro t h; simp at h; done)
    | (intro t h; simp at h; subst h; decide)

/-- A multi-range header. -/
example : extractYarnPackageName g!"\"@babel/core@^7.0\", \"@babel/core@^7.1\":" = g!"@babel/core" := by decide +kernel

end Osv
