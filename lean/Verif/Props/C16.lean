import Verif.Model.Api
/-! # C16 API query payload -/
namespace Osv

/-- A package with name, ecosystem and version is queried by exactly these. -/
theorem C16_by_version (pkg : PackageDetails) (hn : pkg.name ≠ []) (he : pkg.ecosystem ≠ [])
    (hv : pkg.version ≠ []) :
    buildAPIPayload pkg = ⟨[], pkg.version, pkg.name, pkg.ecosystem⟩ := by
  simp [buildAPIPayload, hn, he, hv]

/-- Otherwise a package with a commit is queried by exactly the commit. -/
theorem C16_by_commit (pkg : PackageDetails) (h : pkg.name = [] ∨ pkg.ecosystem = [] ∨ pkg.version = [])
    (hc : pkg.commit ≠ []) : buildAPIPayload pkg = ⟨pkg.commit, [], [], []⟩ := by
  unfold buildAPIPayload
  rw [if_neg (by rintro ⟨h1, h2, h3⟩; rcases h with h | h | h <;> contradiction), if_pos hc]

/-- Otherwise the query is empty. -/
theorem C16_empty (pkg : PackageDetails) (h : pkg.name = [] ∨ pkg.ecosystem = [] ∨ pkg.version = [])
    (hc : pkg.commit = []) : buildAPIPayload pkg = ⟨[], [], [], []⟩ := by
  unfold buildAPIPayload
  rw [if_neg (by rintro ⟨h1, h2, h3⟩; rcases h with h | h | h <;> contradiction), if_neg (by simp [hc])]

/-- What a batch request yields depends on the packages only through their queries, one per package in
order. -/
theorem C16_batch (parse : Str → Option (List (List Str))) (post : List ApiQuery → HttpOutcome)
    (pkgs : List PackageDetails) (rs : List (List Str)) (h : checkBatch parse post pkgs = .ok rs) :
    ∃ qs body, post qs = .response 200 (some body) ∧ parse body = some rs ∧ qs.length = pkgs.length ∧
      ∀ i (hi : i < pkgs.length), qs[i]? = some (buildAPIPayload pkgs[i]) := by
  refine ⟨pkgs.map buildAPIPayload, ?_⟩
  unfold checkBatch at h
  split at h
  · cases h
  · cases h
  · rename_i st body hp
    split at h
    · cases h
    · rename_i hst
      split at h
      · cases h
      · rename_i b
        split at h
        · cases h
        · rename_i rs' hrs
          split at h
          · cases h
          · cases h
            have hst' : st = 200 := by simpa using hst
            subst hst'
            exact ⟨b, hp, hrs, by simp, fun i hi => by simp [hi]⟩

example : buildAPIPayload { name := g!"foo", version := [], commit := g!"abc", ecosystem := g!"npm" } =
    ⟨g!"abc", [], [], []⟩ := by decide

end Osv
