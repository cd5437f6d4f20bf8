import Verif.Model.Main
/-! # C38 Parsed packages are sorted and nothing is lost -/
namespace Osv

/-- `a` comes strictly before `b`: by name, then by version, as strings of characters. -/
def PkgBefore (a b : PackageDetails) : Prop := a.name < b.name ∨ (a.name = b.name ∧ a.version < b.version)

theorem pkgLess_iff (a b : PackageDetails) : pkgLess a b = true ↔ PkgBefore a b := by
  unfold pkgLess PkgBefore
  split
  · rename_i h
    rw [Str.lt_iff, h]
    have := (Str.lt_strictWeak.irrefl b.name)
    have hn : ¬ b.name < b.name := fun hl => by rw [(Str.lt_iff _ _).2 hl] at this; cases this
    simp [hn]
  · rename_i h
    rw [Str.lt_iff]
    simp [h]

theorem pkgLess_strictWeak : StrictWeak pkgLess where
  irrefl a := by unfold pkgLess; rw [if_pos rfl]; exact Str.lt_strictWeak.irrefl _
  trans a b c hab hbc := by
    unfold pkgLess at *
    by_cases h1 : a.name = b.name <;> by_cases h2 : b.name = c.name
    · rw [if_pos h1] at hab; rw [if_pos h2] at hbc
      rw [if_pos (h1.trans h2)]
      exact Str.lt_strictWeak.trans _ _ _ hab hbc
    · rw [if_neg h2] at hbc
      rw [if_neg (h1 ▸ h2), h1]; exact hbc
    · rw [if_neg h1] at hab
      rw [if_neg (h2 ▸ h1), ← h2]; exact hab
    · rw [if_neg h1] at hab; rw [if_neg h2] at hbc
      have := Str.lt_strictWeak.trans _ _ _ hab hbc
      have hne : a.name ≠ c.name := by
        intro h
        rw [h, Str.lt_strictWeak.irrefl] at this
        cases this
      rw [if_neg hne]; exact this
  cotrans a b c hac := by
    unfold pkgLess at *
    by_cases h : a.name = c.name
    · rw [if_pos h] at hac
      by_cases h1 : a.name = b.name
      · rw [if_pos h1, if_pos (h1 ▸ h)]
        exact Str.lt_strictWeak.cotrans _ _ _ hac
      · rw [if_neg h1, if_neg (fun hb => h1 (h.trans hb.symm)), ← h]
        cases hl : Str.lt a.name b.name with
        | true => exact .inl rfl
        | false =>
          cases hr : Str.lt b.name a.name with
          | true => exact .inr rfl
          | false => exact absurd (Str.lt_total hl hr) h1
    · rw [if_neg h] at hac
      by_cases h1 : a.name = b.name
      · rw [if_neg (fun hb => h (h1.trans hb)), ← h1]; exact .inr hac
      · by_cases h2 : b.name = c.name
        · rw [if_neg h1, h2]; exact .inl hac
        · rw [if_neg h1, if_neg h2]
          exact Str.lt_strictWeak.cotrans _ _ _ hac

/-- The packages of a lockfile are those the parser returned, in order of name and version. -/
theorem C38_sorted (S : Sorter) (env : Env) (path parseAs p : Str) (h : findParser path parseAs = some p) :
    (parseWith S env path parseAs).1.packages.Perm (env.parse p path).1 ∧
    (parseWith S env path parseAs).1.packages.Pairwise (fun a b => ¬ PkgBefore b a) := by
  unfold parseWith
  rw [h]
  refine ⟨S.perm _ _, ?_⟩
  refine (S.sorted pkgLess pkgLess _ pkgLess_strictWeak (List.pairwise_of_forall fun _ _ => ⟨rfl, rfl⟩)).imp ?_
  intro a b hab hb
  rw [(pkgLess_iff b a).2 hb] at hab
  cases hab

/-- The same for CSV input. -/
theorem C38_csv (S : Sorter) (records : List (List Str)) (ok : Bool) (ps : List PackageDetails)
    (h : fromCSV S records ok = (ps, none)) :
    ps.Perm (csvLoop 0 [] ok records).1 ∧ ps.Pairwise (fun a b => ¬ PkgBefore b a) := by
  unfold fromCSV at h
  rcases hc : csvLoop 0 [] ok records with ⟨qs, e⟩
  rw [hc] at h
  cases e with
  | some e => cases (Prod.mk.inj h).2
  | none =>
    cases (Prod.mk.inj h).1
    refine ⟨S.perm _ _, ?_⟩
    refine (S.sorted pkgLess pkgLess _ pkgLess_strictWeak (List.pairwise_of_forall fun _ _ => ⟨rfl, rfl⟩)).imp ?_
    intro a b hab hb
    rw [(pkgLess_iff b a).2 hb] at hab
    cases hab

theorem sorted_perm_unique (l l' : List PackageDetails) (hp : l.Perm l')
    (hd : ∀ a ∈ l, ∀ b ∈ l, a.name = b.name → a.version = b.version → a = b)
    (h : l.Pairwise fun a b => ¬ PkgBefore b a) (h' : l'.Pairwise fun a b => ¬ PkgBefore b a) : l = l' := by
  have total : ∀ a b : PackageDetails, ¬ PkgBefore a b → ¬ PkgBefore b a → (a.name, a.version) = (b.name, b.version) := by
    intro a b h1 h2
    rw [← pkgLess_iff] at h1 h2
    unfold pkgLess at h1 h2
    by_cases hn : a.name = b.name
    · rw [if_pos hn] at h1
      rw [if_pos hn.symm] at h2
      rw [hn, Str.lt_total (a := a.version) (b := b.version) (by simpa using h1) (by simpa using h2)]
    · rw [if_neg hn] at h1
      rw [if_neg (Ne.symm hn)] at h2
      exact absurd (Str.lt_total (by simpa using h1) (by simpa using h2)) hn
  refine hp.eq_of_pairwise (le := fun a b => ¬ PkgBefore b a) ?_ h h'
  intro a b ha hb h1 h2
  have heq := Prod.mk.inj (total a b h2 h1)
  exact hd a ha b (hp.mem_iff.2 hb) heq.1 heq.2

/-- If no two different packages share name and version, the result does not depend on the order in which the parser returns
them, nor on the sort routine. -/
theorem C38_deterministic (S S' : Sorter) (ps ps' : List PackageDetails) (hp : ps.Perm ps')
    (hd : ∀ a ∈ ps, ∀ b ∈ ps, a.name = b.name → a.version = b.version → a = b) : S.sort pkgLess ps = S'.sort pkgLess ps' := by
  have srt : ∀ (S : Sorter) (ps : List PackageDetails), (S.sort pkgLess ps).Pairwise fun a b => ¬ PkgBefore b a := by
    intro S ps
    refine (S.sorted pkgLess pkgLess _ pkgLess_strictWeak (List.pairwise_of_forall fun _ _ => ⟨rfl, rfl⟩)).imp ?_
    intro a b hab hb
    rw [(pkgLess_iff b a).2 hb] at hab
    cases hab
  refine sorted_perm_unique _ _ ((S.perm _ _).trans (hp.trans (S'.perm _ _).symm)) ?_ (srt _ _) (srt _ _)
  intro a ha b hb
  exact hd a ((S.perm _ _).mem_iff.1 ha) b ((S.perm _ _).mem_iff.1 hb)

/-! ### Non-vacuity -/

/-- Packages of a file, one of them listed twice. -/
def C38_sample : List PackageDetails := [⟨g!"b", g!"1", [], g!"npm", g!"npm"⟩, ⟨g!"a", g!"2", [], g!"npm", g!"npm"⟩,
  ⟨g!"a", g!"1", [], g!"npm", g!"npm"⟩, ⟨g!"b", g!"1", [], g!"npm", g!"npm"⟩]

example : ∀ a ∈ C38_sample, ∀ b ∈ C38_sample, a.name = b.name → a.version = b.version → a = b := by decide

example : findParser g!"x/go.mod" [] = some g!"go.mod" := by decide

end Osv
