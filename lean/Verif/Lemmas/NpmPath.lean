import Verif.Spec.Npm
import Verif.Lemmas.Path
/-! # Names at the end of a path -/
namespace Osv
open Str Spec

namespace Path

theorem cleanComps_trailing (rooted : Bool) (acc cs : List Str) : cleanComps rooted acc (cs ++ [[]]) = cleanComps rooted acc cs := by
  induction cs generalizing acc with
  | nil => simp [cleanComps]
  | cons c cs ih =>
    simp only [List.cons_append]
    unfold cleanComps
    split
    · exact ih _
    · split
      · split
        · split <;> exact ih _
        · split <;> exact ih _
      · exact ih _

theorem join_snoc (pre : List Str) (s : Str) (h : pre ≠ []) : join g!"/" (pre ++ [s]) = join g!"/" pre ++ '/' :: s := by
  induction pre with
  | nil => exact absurd rfl h
  | cons a pre ih =>
    cases pre with
    | nil => simp [join]
    | cons b pre =>
      have := ih (by simp)
      simp only [List.cons_append] at this ⊢
      unfold join
      rw [this]
      simp

theorem base_join (segs : List Str) (s : Str) (hs : ∀ t ∈ segs ++ [s], '/' ∉ t) (hne : s ≠ []) :
    base (join g!"/" (segs ++ [s])) = s := by
  have hlast : ∃ u, join g!"/" (segs ++ [s]) = u ++ s := by
    by_cases h : segs = []
    · subst h; exact ⟨[], by simp [join]⟩
    · rw [join_snoc _ _ h]; exact ⟨join g!"/" segs ++ ['/'], by simp⟩
  obtain ⟨u, hu⟩ := hlast
  have hnn : join g!"/" (segs ++ [s]) ≠ [] := by rw [hu]; simp [hne]
  unfold base
  rw [if_neg hnn]
  have hdrop : dropRight (· == '/') (join g!"/" (segs ++ [s])) = join g!"/" (segs ++ [s]) := by
    apply dropRight_all
    intro c hc
    have hc' : c ∈ s.getLast? := by
      rw [hu, List.getLast?_append] at hc
      cases hg : s.getLast? with
      | none => exact absurd (List.getLast?_eq_none_iff.1 hg) hne
      | some d => rw [hg] at hc; simpa using hc
    have : c ∈ s := List.mem_of_getLast? hc'
    have hsl := hs s (by simp)
    simp only [beq_eq_false_iff_ne]
    rintro rfl
    exact hsl this
  dsimp only
  rw [hdrop, if_neg hnn, splitChar_join '/' _ (by simp) hs]
  simp

theorem dir_single (s : Str) (h : '/' ∉ s) : dir s = g!"." := by
  unfold dir
  rw [cutLast?_none _ _ h]
  rfl

theorem dir_join (pre : List Str) (s : Str) (hp : pre ≠ []) (hs : ∀ t ∈ pre ++ [s], '/' ∉ t) (hne : ∀ t ∈ pre, t ≠ [])
    (hn : Normal false pre) : dir (join g!"/" (pre ++ [s])) = join g!"/" pre := by
  unfold dir
  rw [join_snoc _ _ hp, cutLast?_append _ _ _ (hs s (by simp))]
  dsimp only
  have e : join g!"/" pre ++ g!"/" = join g!"/" (pre ++ [[]]) := by rw [join_snoc _ _ hp]
  obtain ⟨a, pre', rfl⟩ := List.exists_cons_of_ne_nil hp
  have ha := hne a (by simp)
  obtain ⟨c, a', rfl⟩ := List.exists_cons_of_ne_nil ha
  obtain ⟨t, ht⟩ := join_head g!"/" (c :: a') pre'
  have hc : c ≠ '/' := by
    rintro rfl
    exact hs ('/' :: a') (by simp) (by simp)
  unfold clean
  rw [if_neg (by simp), if_neg (by rw [ht]; simpa using hc), e, splitChar_join '/' _ (by simp) ?_, cleanComps_trailing,
    cleanComps_of_normal _ _ hn]
  · rw [if_neg (by rw [ht]; simp)]
  · intro p hp
    rcases List.mem_append.1 hp with h | h
    · exact hs p (List.mem_append.2 (Or.inl h))
    · simp at h; subst h; simp

end Path

namespace Npm

theorem path_normal {path : Str} {pre : List Str} {s : Str} (h : NpmPath path (pre ++ [s])) : Path.Normal false pre := by
  obtain ⟨_, _, hall, ups, rest, e, hu, hr⟩ := h
  have hall' : ∀ t ∈ pre, t ≠ [] ∧ t ≠ g!"." := fun t ht => (hall t (by simp [ht])).2
  rcases List.eq_nil_or_concat rest with rfl | ⟨rest', r, rfl⟩
  · rw [List.append_nil] at e
    refine ⟨pre.length, [], ?_, by simp, by simp⟩
    rw [List.append_nil]
    apply List.eq_replicate_iff.2 ⟨rfl, fun t ht => hu t (by rw [← e]; simp [ht])⟩
  · rw [List.concat_eq_append, ← List.append_assoc] at e
    have := List.append_inj' e rfl
    obtain ⟨rfl, _⟩ := this
    refine ⟨ups.length, rest', ?_, by simp, ?_⟩
    · congr 1
      exact List.eq_replicate_iff.2 ⟨rfl, hu⟩
    · intro p hp
      obtain ⟨h1, h2⟩ := hall' p (by simp [hp])
      exact ⟨h1, h2, hr p (by simp [hp])⟩

/-- The name that the code reads off a path. -/
theorem extract_name {path : Str} {segs : List Str} {name : Str} (hp : NpmPath path segs) (hn : NpmNameAt segs name) :
    extractNpmPackageName path = name := by
  have hsl : ∀ t ∈ segs, '/' ∉ t := fun t ht => (hp.2.2.1 t ht).1
  have hne : ∀ t ∈ segs, t ≠ [] := fun t ht => (hp.2.2.1 t ht).2.1
  have hpath := hp.2.1
  unfold extractNpmPackageName
  dsimp only
  rcases hn with ⟨pre, s, rfl, hpre, rfl⟩ | ⟨pre, scope, s, rfl, rfl⟩
  · have hbase : Path.base path = name := by rw [hpath]; exact Path.base_join _ _ hsl (hne _ (by simp))
    rw [hbase]
    by_cases h : pre = []
    · subst h
      have : path = name := by rw [hpath]; simp [join]
      rw [this, Path.dir_single _ (hsl _ (by simp))]
      rw [if_neg (by decide +kernel)]
    · have hd := Path.dir_join pre name h hsl (fun t ht => hne t (by simp [ht])) (path_normal hp)
      rw [← hpath] at hd
      rw [hd]
      obtain ⟨pre', l, e⟩ := (List.eq_nil_or_concat pre).resolve_left h
      rw [List.concat_eq_append] at e
      subst e
      rw [Path.base_join _ _ (fun t ht => hsl t (List.mem_append.2 (Or.inl ht))) (hne _ (by simp))]
      rw [if_neg]
      intro hpx
      obtain ⟨t, ht⟩ := (hasPrefix_iff _ _).1 hpx
      exact hpre l (by simp) t ht
  · have e : pre ++ ['@' :: scope, s] = (pre ++ ['@' :: scope]) ++ [s] := by simp
    rw [e] at hp hsl hne hpath
    have hbase : Path.base path = s := by rw [hpath]; exact Path.base_join _ _ hsl (hne _ (by simp))
    have hd := Path.dir_join (pre ++ ['@' :: scope]) s (by simp) hsl (fun t ht => hne t (List.mem_append.2 (Or.inl ht))) (path_normal hp)
    rw [← hpath] at hd
    rw [hd, hbase, Path.base_join _ _ (fun t ht => hsl t (List.mem_append.2 (Or.inl ht))) (by simp),
      if_pos ((hasPrefix_iff ('@' :: scope) g!"@").2 ⟨scope, rfl⟩)]
    simp

theorem nameAt_exists (segs : List Str) (h : segs ≠ []) : ∃ name, NpmNameAt segs name := by
  obtain ⟨pre, s, e⟩ := (List.eq_nil_or_concat segs).resolve_left h
  rw [List.concat_eq_append] at e
  subst e
  rcases List.eq_nil_or_concat pre with rfl | ⟨pre', l, rfl⟩
  · exact ⟨s, Or.inl ⟨[], s, rfl, by simp, rfl⟩⟩
  · rw [List.concat_eq_append]
    match l with
    | '@' :: scope => exact ⟨_, Or.inr ⟨pre', scope, s, by simp, rfl⟩⟩
    | [] => exact ⟨s, Or.inl ⟨pre' ++ [[]], s, rfl, by simp, rfl⟩⟩
    | c :: r =>
      by_cases hc : c = '@'
      · subst hc; exact ⟨_, Or.inr ⟨pre', r, s, by simp, rfl⟩⟩
      · exact ⟨s, Or.inl ⟨pre' ++ [c :: r], s, rfl, by simp [hc], rfl⟩⟩

end Npm
end Osv
