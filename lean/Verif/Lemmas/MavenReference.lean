import Verif.Lemmas.Maven
/-! # The reference that is found in a version of a pom.xml -/
namespace Osv
open Str Spec

namespace Maven

/-- The expression finds the reference from the first `${` to the last `}`. -/
theorem find_reference (pre name post : Str) (hne : name ≠ []) (hn : '\n' ∉ name ++ g!"}" ++ post) (hp : '}' ∉ post)
    (hpre : ¬ g!"${" <:+: pre ++ g!"$") (bol : Bool) :
    ∃ f, Re.findFrom mavenInterpolationRe bol (pre ++ Reference name ++ post) = some f ∧ f.group 1 = name := by
  induction pre generalizing bol with
  | nil =>
    obtain ⟨c, n, rfl⟩ : ∃ c n, name = c :: n := by
      cases name with
      | nil => exact absurd rfl hne
      | cons c n => exact ⟨c, n, rfl⟩
    have hfirst : ∃ x y, Re.first mavenInterpolationRe bol (Reference (c :: n) ++ post) [] some = some (x, y, [(1, c :: n)]) := by
      refine ⟨Reference (c :: n), post, ?_⟩
      unfold mavenInterpolationRe
      simp only [Re.cat]
      rw [Re.first_seq, Re.first_lit, if_pos (by simp [Reference, List.isPrefixOf])]
      rw [Re.first_seq, Re.first_cap]
      unfold Re.plus
      rw [Re.first_seq]
      have hd : (Reference (c :: n) ++ post).drop (g!"${").length = c :: (n ++ (g!"}" ++ post)) := by simp [Reference]
      dsimp only
      rw [hd]
      unfold Re.any
      rw [Re.first_cls_cons, if_pos (by
        simp only [bne_iff_ne, ne_eq]
        rintro rfl
        exact hn (by simp))]
      apply Re.first_starG_some
      · simp only [List.all_eq_true, bne_iff_ne]
        rintro d hd rfl
        exact hn (by simp [hd])
      · dsimp only
        rw [show g!"}" ++ post = '}' :: post from rfl, Re.first_ch_cons, if_pos (by simp)]
        simp [Reference]
      · intro y z e hy _
        cases y with
        | nil => exact absurd rfl hy
        | cons d y =>
          injection e with e1 e2
          cases z with
          | nil => exact Re.first_ch_nil _ _ _ _
          | cons b z =>
            dsimp only
            rw [Re.first_ch_cons, if_neg]
            intro hb
            have : b = '}' := by simpa using hb
            subst this
            exact hp (by rw [show post = y ++ '}' :: z from e2]; simp)
    obtain ⟨x, y, e⟩ := hfirst
    refine ⟨_, by rw [List.nil_append]; exact Re.findFrom_here _ _ _ _ e, ?_⟩
    simp [Re.Found.group]
  | cons c pre ih =>
    have hpre' : ¬ g!"${" <:+: pre ++ g!"$" := fun h => hpre (by
      rw [List.cons_append]
      exact List.infix_cons h)
    have hnone : Re.first mavenInterpolationRe bol (c :: (pre ++ Reference name ++ post)) [] some = none := by
      unfold mavenInterpolationRe
      simp only [Re.cat]
      rw [Re.first_seq, Re.first_lit, if_neg]
      intro h
      have h := List.isPrefixOf_iff_prefix.1 h
      obtain ⟨r, hr⟩ := h
      refine hpre (List.IsPrefix.isInfix ?_)
      simp only [List.cons_append, List.nil_append, List.cons.injEq] at hr
      obtain ⟨rfl, hr⟩ := hr
      cases pre with
      | nil =>
        simp [Reference] at hr
      | cons b pre =>
        simp only [List.cons_append, List.cons.injEq] at hr
        obtain ⟨rfl, -⟩ := hr
        exact ⟨pre ++ g!"$", rfl⟩
    obtain ⟨f, hf, hg⟩ := ih hpre' false
    refine ⟨{ f with pre := c :: f.pre }, ?_, hg⟩
    rw [List.cons_append, List.cons_append, Re.findFrom_next _ _ _ _ hnone, hf]
    rfl

theorem last_brace (r : Str) (h : '}' ∈ r) : ∃ n post, r = n ++ '}' :: post ∧ '}' ∉ post := by
  induction r with
  | nil => cases h
  | cons c r ih =>
    by_cases hr : '}' ∈ r
    · obtain ⟨n, post, rfl, hp⟩ := ih hr
      exact ⟨c :: n, post, rfl, hp⟩
    · rcases List.mem_cons.1 h with rfl | h
      · exact ⟨[], r, rfl, hr⟩
      · exact absurd h hr

/-- If there is any reference, there is one from the first `${` to the last `}`. -/
theorem has_reference (s : Str) (h : ∃ a n b, n ≠ [] ∧ s = a ++ Reference n ++ b) : ∃ name, GreedyReference s name := by
  induction s with
  | nil =>
    obtain ⟨a, n, b, -, e⟩ := h
    simp [Reference] at e
  | cons c t ih =>
    by_cases hs : ∃ r, c :: t = g!"${" ++ r
    · obtain ⟨r, hr⟩ := hs
      rw [hr] at h ⊢
      obtain ⟨a, n, b, hne, e⟩ := h
      -- somewhere behind its first character there is a brace
      have hb : ∃ x r', r = x :: r' ∧ '}' ∈ r' := by
        cases a with
        | nil =>
          simp only [Reference, List.nil_append, List.cons_append, List.append_assoc, List.cons.injEq, true_and] at e
          cases n with
          | nil => exact absurd rfl hne
          | cons x n => exact ⟨x, n ++ '}' :: b, e, by simp⟩
        | cons y a =>
          cases a with
          | nil => simp [Reference] at e
          | cons z a =>
            simp only [Reference, List.nil_append, List.cons_append, List.append_assoc, List.cons.injEq] at e
            obtain ⟨-, -, e⟩ := e
            cases a with
            | nil => exact ⟨'$', '{' :: (n ++ '}' :: b), e, by simp⟩
            | cons w a => exact ⟨w, a ++ '$' :: '{' :: (n ++ '}' :: b), e, by simp⟩
      obtain ⟨x, r', rfl, hr'⟩ := hb
      obtain ⟨n', post, rfl, hp⟩ := last_brace r' hr'
      exact ⟨x :: n', [], post, by simp [Reference], by simp, hp, by decide⟩
    · obtain ⟨a, n, b, hne, e⟩ := h
      cases a with
      | nil => exact absurd ⟨n ++ g!"}" ++ b, by rw [e]; simp [Reference]⟩ hs
      | cons y a =>
        injection e with e1 e2
        obtain ⟨name, pre, post, h1, h2, h3, h4⟩ := ih ⟨a, n, b, hne, e2⟩
        refine ⟨name, c :: pre, post, by rw [h1]; rfl, h2, h3, ?_⟩
        rw [List.cons_append, List.infix_cons_iff]
        rintro (⟨r, hr⟩ | hi)
        · apply hs
          simp only [List.cons_append, List.nil_append, List.cons.injEq] at hr
          obtain ⟨rfl, hr⟩ := hr
          cases pre with
          | nil => simp at hr
          | cons w pre =>
            simp only [List.cons_append, List.cons.injEq] at hr
            obtain ⟨rfl, -⟩ := hr
            exact ⟨pre ++ Reference name ++ post, by rw [h1]; rfl⟩
        · exact h4 hi

theorem no_newline {s pre name post : Str} (hn : '\n' ∉ s) (h : s = pre ++ Reference name ++ post) : '\n' ∉ name ++ g!"}" ++ post := by
  intro hm
  apply hn
  rw [h]
  simp only [Reference, List.mem_append] at hm ⊢
  rcases hm with (hm | hm) | hm
  · simp [hm]
  · simp at hm
  · simp [hm]

theorem reference_iff (s : Str) (hn : '\n' ∉ s) (name : Str) :
    (∃ f, Re.find mavenInterpolationRe s = some f ∧ f.group 1 = name) ↔ GreedyReference s name := by
  constructor
  · rintro ⟨f, hf, rfl⟩
    obtain ⟨e, hm⟩ := Re.findFrom_sound _ _ _ _ hf
    unfold mavenInterpolationRe at hm
    have hex : ∃ a n b, n ≠ [] ∧ s = a ++ Reference n ++ b := by
      rw [Re.matches_cat_cons] at hm
      obtain ⟨x, y, k1, h1, h2, h3⟩ := hm
      obtain ⟨rfl, rfl⟩ := Re.matches_lit.1 h2
      rw [Re.matches_cat_cons] at h3
      obtain ⟨x', y', k2, h4, h5, h6⟩ := h3
      obtain ⟨k3, h7, -⟩ := Re.matches_cap.1 h5
      obtain ⟨h8, -⟩ := Re.matches_plus_cls.1 h7
      rw [Re.matches_cat_cons] at h6
      obtain ⟨x2, y2, k4, h9, h10, h11⟩ := h6
      obtain ⟨rfl, -⟩ := Re.matches_ch.1 h10
      refine ⟨f.pre, x', y2 ++ f.post, h8, ?_⟩
      rw [e, h1, h4, h9]
      simp [Reference]
    obtain ⟨name, pre, post, h1, h2, h3, h4⟩ := has_reference s hex
    obtain ⟨f', hf', hg⟩ := find_reference pre name post h2 (no_newline hn h1) h3 h4 true
    rw [← h1, ← Re.find_eq_findFrom, hf] at hf'
    cases hf'
    rw [hg]
    exact ⟨pre, post, h1, h2, h3, h4⟩
  · rintro ⟨pre, post, h1, h2, h3, h4⟩
    obtain ⟨f', hf', hg⟩ := find_reference pre name post h2 (no_newline hn h1) h3 h4 true
    rw [← h1, ← Re.find_eq_findFrom] at hf'
    exact ⟨f', hf', hg⟩

end Maven

end Osv
