import Verif.Spec.GoMod
import Verif.Lemmas.NuGet
/-! # The maps of go.mod -/
namespace Osv
open Str Spec

namespace SMap

theorem set_existing {α : Type} (m : SMap α) (k : Str) (v : α) (hn : (m.map (·.1)).Nodup) (hk : k ∈ m.map (·.1)) :
    m.set k v = m.map (fun x => if x.1 = k then (x.1, v) else x) := by
  induction m with
  | nil => cases hk
  | cons x m ih =>
    obtain ⟨k', w⟩ := x
    simp only [List.map_cons, List.nodup_cons] at hn
    unfold SMap.set
    by_cases h : k' = k
    · rw [if_pos h]
      simp only [List.map_cons, if_pos h, List.cons.injEq, true_and]
      subst h
      clear ih hk
      have : ∀ x ∈ m, x.1 ≠ k' := fun x hx e => hn.1 (List.mem_map.2 ⟨x, hx, e⟩)
      induction m with
      | nil => rfl
      | cons y m ih =>
        simp only [List.map_cons, List.nodup_cons, List.mem_cons, not_or] at hn
        simp only [List.map_cons, if_neg (this y (by simp))]
        rw [← ih ⟨hn.1.2, hn.2.2⟩ fun x hx => this x (by simp [hx])]
    · rw [if_neg h]
      simp only [List.map_cons, if_neg h, List.cons.injEq, true_and]
      refine ih hn.2 ?_
      rcases List.mem_cons.1 hk with e | hk
      · exact absurd e.symm h
      · exact hk

theorem fold_set_existing {α : Type} (ks : List Str) (v : α) (m : SMap α) (hn : (m.map (·.1)).Nodup)
    (hk : ∀ k ∈ ks, k ∈ m.map (·.1)) :
    ks.foldl (fun m k => m.set k v) m = m.map (fun x => if x.1 ∈ ks then (x.1, v) else x) := by
  induction ks generalizing m with
  | nil => simp
  | cons k ks ih =>
    have e := set_existing m k v hn (hk k (by simp))
    have hkeys : (m.set k v).map (·.1) = m.map (·.1) := by
      rw [SMap.keys_set, if_pos (hk k (by simp))]
    rw [List.foldl_cons, ih (m.set k v) (by rw [hkeys]; exact hn) (fun j hj => by rw [hkeys]; exact hk j (by simp [hj])), e,
      List.map_map]
    apply List.map_congr_left
    intro x _
    by_cases h : x.1 = k
    · simp [Function.comp, h]
    · by_cases h2 : x.1 ∈ ks <;> simp [Function.comp, h, h2]

theorem get?_isSome {α : Type} (m : SMap α) (k : Str) : (m.get? k).isSome = true ↔ k ∈ m.map (·.1) := by
  induction m with
  | nil => simp [SMap.get?]
  | cons x m ih =>
    obtain ⟨k', w⟩ := x
    unfold SMap.get? at ih ⊢
    rw [List.lookup_cons]
    by_cases h : k = k'
    · simp [h]
    · rw [beq_eq_false_iff_ne.2 h, ih]
      simp [h]

end SMap

namespace GoMod

/-- What a directive makes of an entry. -/
def step (r : GoReplace) (k : Str) (d : PackageDetails) : PackageDetails :=
  if r.old.version = [] then (if d.name = r.old.path then goDetails r.new else d)
  else if k = r.old.path ++ g!"@" ++ r.old.version then goDetails r.new else d

variable {iter : SMap PackageDetails → SMap PackageDetails}

theorem replace_step (hi : ∀ l, (iter l).Perm l) (packages : SMap PackageDetails) (hn : (packages.map (·.1)).Nodup) (r : GoReplace) :
    (goReplacements iter packages r).foldl (fun m k => m.set k (goDetails r.new)) packages =
      packages.map (fun x => (x.1, step r x.1 x.2)) := by
  have hsub : ∀ k ∈ goReplacements iter packages r, k ∈ packages.map (·.1) := by
    intro k hk
    unfold goReplacements at hk
    by_cases h : r.old.version = []
    · rw [if_pos h] at hk
      obtain ⟨x, hx, rfl⟩ := List.mem_map.1 hk
      exact List.mem_map.2 ⟨x, (hi _).mem_iff.1 (List.mem_filter.1 hx).1, rfl⟩
    · rw [if_neg h] at hk
      by_cases h2 : (packages.get? (r.old.path ++ g!"@" ++ r.old.version)).isSome = true
      · rw [if_pos h2] at hk
        rw [List.mem_singleton.1 hk]
        exact (SMap.get?_isSome _ _).1 h2
      · rw [if_neg h2] at hk
        cases hk
  rw [SMap.fold_set_existing _ _ _ hn hsub]
  apply List.map_congr_left
  rintro ⟨k, d⟩ hx
  have hmem : k ∈ goReplacements iter packages r ↔
      (r.old.version = [] ∧ d.name = r.old.path) ∨ (r.old.version ≠ [] ∧ k = r.old.path ++ g!"@" ++ r.old.version) := by
    unfold goReplacements
    by_cases h : r.old.version = []
    · rw [if_pos h]
      constructor
      · intro hk
        obtain ⟨⟨k', d'⟩, hy, e⟩ := List.mem_map.1 hk
        obtain ⟨h1, h2⟩ := List.mem_filter.1 hy
        dsimp only at e
        subst e
        rw [Json.key_unique hn ((hi _).mem_iff.1 h1) hx] at h2
        exact Or.inl ⟨h, by simpa using h2⟩
      · rintro (⟨_, h2⟩ | ⟨h2, _⟩)
        · exact List.mem_map.2 ⟨(k, d), List.mem_filter.2 ⟨(hi _).mem_iff.2 hx, by simpa using h2⟩, rfl⟩
        · exact absurd h h2
    · rw [if_neg h]
      constructor
      · intro hk
        by_cases h2 : (packages.get? (r.old.path ++ g!"@" ++ r.old.version)).isSome = true
        · rw [if_pos h2] at hk
          exact Or.inr ⟨h, List.mem_singleton.1 hk⟩
        · rw [if_neg h2] at hk
          cases hk
      · rintro (⟨h2, _⟩ | ⟨_, h2⟩)
        · exact absurd h2 h
        · rw [if_pos ((SMap.get?_isSome _ _).2 (h2 ▸ List.mem_map.2 ⟨_, hx, rfl⟩)), h2]
          simp
  unfold step
  dsimp only
  by_cases h : r.old.version = []
  · by_cases h2 : d.name = r.old.path
    · rw [if_pos (hmem.2 (Or.inl ⟨h, h2⟩)), if_pos h, if_pos h2]
    · rw [if_neg (by rw [hmem]; simp [h, h2]), if_pos h, if_neg h2]
  · by_cases h2 : k = r.old.path ++ g!"@" ++ r.old.version
    · rw [if_pos (hmem.2 (Or.inr ⟨h, h2⟩)), if_neg h, if_pos h2]
    · rw [if_neg (by rw [hmem]; simp only [h, h2]; simp), if_neg h, if_neg h2]

/-- What all directives make of an entry. -/
def steps (rs : List GoReplace) (k : Str) (d : PackageDetails) : PackageDetails := rs.foldl (fun d r => step r k d) d

theorem replace_loop (hi : ∀ l, (iter l).Perm l) (rs : List GoReplace) (packages : SMap PackageDetails)
    (hn : (packages.map (·.1)).Nodup) : goReplaceLoop iter packages rs = packages.map (fun x => (x.1, steps rs x.1 x.2)) := by
  induction rs generalizing packages with
  | nil => simp [goReplaceLoop, steps]
  | cons r rs ih =>
    unfold goReplaceLoop
    rw [replace_step hi packages hn, ih _ (by rw [List.map_map]; exact hn), List.map_map]
    rfl

theorem require_adds (packages : SMap PackageDetails) (l : List GoModule) :
    DetailMap.Adds packages (goRequireLoop packages l) (fun x => ∃ m ∈ l, x = (m.path ++ g!"@" ++ m.version, goDetails m)) := by
  induction l generalizing packages with
  | nil => exact (DetailMap.Adds.refl _).congr (by simp)
  | cons m l ih =>
    unfold goRequireLoop
    exact ((DetailMap.Adds.set packages (m.path ++ g!"@" ++ m.version, goDetails m)).trans (ih _)).congr (by simp)

theorem key_inj {m n : GoModule} (h : m.path ++ g!"@" ++ m.version = n.path ++ g!"@" ++ n.version) (hm : '@' ∉ m.path)
    (hn : '@' ∉ n.path) : m = n := by
  have := DetailMap.key_inj (d := ⟨m.path, m.version, [], [], []⟩) (e := ⟨n.path, n.version, [], [], []⟩) h hm hn
  obtain ⟨p, v⟩ := m
  obtain ⟨p', v'⟩ := n
  simp at this
  rw [this.1, this.2]

theorem dedup_adds (packages : SMap PackageDetails) (hi : ∀ l, (iter l).Perm l) :
    DetailMap.Adds [] (deduplicatePackages iter packages)
      (fun x => ∃ y ∈ packages, x = (y.2.name ++ g!"@" ++ y.2.version, y.2)) := by
  unfold deduplicatePackages
  have h : ∀ (l : SMap PackageDetails) (m : SMap PackageDetails), DetailMap.Adds m
      (l.foldl (fun m x => m.set (x.2.name ++ g!"@" ++ x.2.version) x.2) m)
      (fun x => ∃ y ∈ l, x = (y.2.name ++ g!"@" ++ y.2.version, y.2)) := by
    intro l
    induction l with
    | nil => intro m; exact (DetailMap.Adds.refl _).congr (by simp)
    | cons y l ih =>
      intro m
      exact ((DetailMap.Adds.set m (y.2.name ++ g!"@" ++ y.2.version, y.2)).trans (ih _)).congr (by simp)
  exact (h _ _).congr fun x => by
    constructor
    · rintro ⟨y, hy, e⟩; exact ⟨y, (hi _).mem_iff.1 hy, e⟩
    · rintro ⟨y, hy, e⟩; exact ⟨y, (hi _).mem_iff.2 hy, e⟩

theorem trim_v (v : Str) : BareVersion v (trimPrefix v g!"v") := by
  unfold trimPrefix
  cases v with
  | nil => exact Or.inr ⟨rfl, by simp⟩
  | cons c r =>
    by_cases h : c = 'v'
    · subst h; exact Or.inl (by simp [hasPrefix, List.isPrefixOf])
    · have : hasPrefix (c :: r) g!"v" = false := by simp [hasPrefix, List.isPrefixOf, Ne.symm h]
      rw [this]
      exact Or.inr ⟨rfl, by simp [h]⟩

theorem bare_unique {v t t' : Str} (h : BareVersion v t) (h' : BareVersion v t') : t = t' := by
  rcases h with rfl | ⟨rfl, h⟩ <;> rcases h' with h' | ⟨rfl, h'⟩
  · injection h'
  · exact absurd rfl (h' _)
  · exact absurd h' (h _)
  · rfl

theorem reported (m : GoModule) (p : PackageDetails) : GoReported m p ↔ p = goDetails m := by
  constructor
  · rintro ⟨t, ht, rfl⟩
    rw [bare_unique ht (trim_v m.version)]; rfl
  · rintro rfl; exact ⟨_, trim_v _, rfl⟩

end GoMod
end Osv
