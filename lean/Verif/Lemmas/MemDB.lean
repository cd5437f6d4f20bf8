import Verif.Model.MemDB
import Verif.Spec.Vulns
import Verif.Lemmas.Ecosystem
/-! Lemmas about the in-memory database. -/
namespace Osv
open Spec

theorem SMap.get?_set_self {α : Type} (m : SMap α) (k : Str) (v : α) : (m.set k v).get? k = some v := by
  induction m with
  | nil => simp [SMap.set, SMap.get?]
  | cons b m ih =>
    obtain ⟨k', v'⟩ := b
    unfold SMap.set SMap.get?
    split
    · rename_i h; simp [List.lookup, h]
    · rename_i h
      have : (k == k') = false := by simpa using Ne.symm h
      simp only [List.lookup, this]
      exact ih

theorem SMap.get?_set_ne {α : Type} (m : SMap α) (k j : Str) (v : α) (h : j ≠ k) :
    (m.set k v).get? j = m.get? j := by
  induction m with
  | nil =>
    have : (j == k) = false := by simpa using h
    simp [SMap.set, SMap.get?, List.lookup, this]
  | cons b m ih =>
    obtain ⟨k', v'⟩ := b
    unfold SMap.set SMap.get?
    split
    · rename_i hk
      subst hk
      have : (j == k') = false := by simpa using h
      simp [List.lookup, this]
    · simp only [List.lookup]
      split
      · rfl
      · exact ih

theorem SMap.keys_set {α : Type} (m : SMap α) (k : Str) (v : α) :
    (m.set k v).map (·.1) = if k ∈ m.map (·.1) then m.map (·.1) else m.map (·.1) ++ [k] := by
  induction m with
  | nil => simp [SMap.set]
  | cons b m ih =>
    obtain ⟨k', v'⟩ := b
    unfold SMap.set
    split
    · rename_i h; simp [h]
    · rename_i h
      simp only [List.map_cons, ih, List.mem_cons, Ne.symm h, false_or]
      split <;> simp

theorem SMap.nodup_set {α : Type} (m : SMap α) (k : Str) (v : α) (h : (m.map (·.1)).Nodup) :
    ((m.set k v).map (·.1)).Nodup := by
  rw [SMap.keys_set]
  split
  · exact h
  · rename_i hk
    rw [List.nodup_append]
    refine ⟨h, by simp, ?_⟩
    intro a ha b hb e
    simp at hb
    subst hb; subst e; exact hk ha

/-- Advisories filed under a key, in load order (an advisory once per affected entry with that key). -/
def filed (names : List Str) (k : Str) (os : List OSV) : List OSV :=
  os.flatMap fun o =>
    if decide (names.length ≠ 0) && !mightAffectPackages o names then []
    else (o.affected.filter fun a => a.key = k).map fun _ => o

theorem get?_foldl_addUnder (as : List Affected) (m : SMap (List OSV)) (o : OSV) (k : Str) :
    ((as.foldl (fun m a => addUnder m a.key o) m).get? k).getD [] =
      (m.get? k).getD [] ++ (as.filter fun a => a.key = k).map fun _ => o := by
  induction as generalizing m with
  | nil => simp
  | cons a as ih =>
    rw [List.foldl_cons, ih]
    unfold addUnder
    by_cases h : a.key = k
    · subst h; rw [SMap.get?_set_self]; simp
    · rw [SMap.get?_set_ne _ _ _ _ (Ne.symm h)]; simp [h]

theorem get?_foldl_load (names : List Str) (os : List OSV) (db : MemDB) (k : Str) :
    ((os.foldl (fun db o => db.addVulnerability o names) db).vulnerabilities.get? k).getD [] =
      (db.vulnerabilities.get? k).getD [] ++ filed names k os := by
  induction os generalizing db with
  | nil => simp [filed]
  | cons o os ih =>
    rw [List.foldl_cons, ih]
    unfold MemDB.addVulnerability filed
    rw [List.flatMap_cons, ← List.append_assoc]
    congr 1
    dsimp only
    split
    · simp
    · rw [get?_foldl_addUnder]

theorem get?_loadAll (names : List Str) (os : List OSV) (k : Str) :
    ((MemDB.loadAll os names).vulnerabilities.get? k).getD [] = filed names k os := by
  unfold MemDB.loadAll
  rw [get?_foldl_load]
  rfl

theorem isAliasOf_iff (o v : OSV) :
    o.isAliasOf v = true ↔ o.id ∈ v.aliases ∨ ∃ x ∈ o.aliases, x ∈ v.aliases := by
  simp only [OSV.isAliasOf, List.any_eq_true, Bool.or_eq_true, decide_eq_true_eq, List.contains_iff_mem]
  constructor
  · rintro ⟨x, hx, rfl | h⟩
    · exact .inl hx
    · exact .inr ⟨x, h, hx⟩
  · rintro (h | ⟨x, h1, h2⟩)
    · exact ⟨_, h, .inl rfl⟩
    · exact ⟨x, h2, .inr h1⟩

theorem related_iff (o v : OSV) :
    (decide (o.id = v.id) || o.isAliasOf v || v.isAliasOf o) = true ↔ Related o v := by
  simp only [Bool.or_eq_true, decide_eq_true_eq, isAliasOf_iff, Related]
  constructor
  · rintro ((h | h | h) | h | ⟨x, h1, h2⟩)
    · exact .inl h
    · exact .inr (.inl h)
    · exact .inr (.inr (.inr h))
    · exact .inr (.inr (.inl h))
    · exact .inr (.inr (.inr ⟨x, h2, h1⟩))
  · rintro (h | h | h | h)
    · exact .inl (.inl h)
    · exact .inl (.inr (.inl h))
    · exact .inr (.inl h)
    · exact .inl (.inr (.inr h))

theorem includesVuln_iff (vs : List OSV) (v : OSV) :
    includesVuln vs v = true ↔ ∃ o ∈ vs, Related o v := by
  simp only [includesVuln, List.any_eq_true]
  constructor
  · rintro ⟨o, ho, h⟩; exact ⟨o, ho, (related_iff o v).mp h⟩
  · rintro ⟨o, ho, h⟩; exact ⟨o, ho, (related_iff o v).mpr h⟩

theorem Spec.Related.symm {a b : OSV} (h : Related a b) : Related b a := by
  rcases h with h | h | h | ⟨x, h1, h2⟩
  · exact .inl h.symm
  · exact .inr (.inr (.inl h))
  · exact .inr (.inl h)
  · exact .inr (.inr (.inr ⟨x, h2, h1⟩))

theorem Spec.Related.refl (a : OSV) : Related a a := .inl rfl

/-- What greedy de-duplication from an accumulator yields. -/
structure Deduped (acc vs out : List OSV) : Prop where
  extends_ : ∃ new, out = acc ++ new ∧ new.Sublist vs ∧ new.Pairwise (fun a b => ¬ Related a b) ∧
    ∀ a ∈ acc, ∀ b ∈ new, ¬ Related a b
  covers : ∀ v ∈ vs, ∃ o ∈ out, Related o v

theorem dedupe_fold (vs acc : List OSV) :
    Deduped acc vs (vs.foldl (fun acc v => if includesVuln acc v then acc else acc ++ [v]) acc) := by
  induction vs generalizing acc with
  | nil => exact ⟨⟨[], by simp, by simp, by simp, by simp⟩, by simp⟩
  | cons v vs ih =>
    rw [List.foldl_cons]
    by_cases h : includesVuln acc v
    · rw [if_pos h]
      obtain ⟨⟨new, e, h1, h2, h3⟩, hc⟩ := ih acc
      refine ⟨⟨new, e, h1.trans (List.sublist_cons_self _ _), h2, h3⟩, ?_⟩
      intro w hw
      rcases List.mem_cons.mp hw with rfl | hw
      · obtain ⟨o, ho, hr⟩ := (includesVuln_iff acc w).mp h
        exact ⟨o, by rw [e]; simp [ho], hr⟩
      · exact hc w hw
    · rw [if_neg h]
      have hn : ∀ o ∈ acc, ¬ Related o v := by
        intro o ho hr
        exact h ((includesVuln_iff acc v).mpr ⟨o, ho, hr⟩)
      obtain ⟨⟨new, e, h1, h2, h3⟩, hc⟩ := ih (acc ++ [v])
      refine ⟨⟨v :: new, by rw [e]; simp, h1.cons_cons v, ?_, ?_⟩, ?_⟩
      · rw [List.pairwise_cons]
        exact ⟨fun b hb => h3 v (by simp) b hb, h2⟩
      · intro a ha b hb
        rcases List.mem_cons.mp hb with rfl | hb
        · exact hn a ha
        · exact h3 a (by simp [ha]) b hb
      · intro w hw
        rcases List.mem_cons.mp hw with rfl | hw
        · exact ⟨w, by rw [e]; simp, Related.refl w⟩
        · exact hc w hw

/-- `Unique`: a sublist without related pairs that covers everything. -/
theorem uniqueVulns_spec (vs : List OSV) :
    (uniqueVulns vs).Sublist vs ∧ (uniqueVulns vs).Pairwise (fun a b => ¬ Related a b) ∧
    ∀ v ∈ vs, ∃ o ∈ uniqueVulns vs, Related o v := by
  obtain ⟨⟨new, e, h1, h2, -⟩, hc⟩ := dedupe_fold vs []
  rw [List.nil_append] at e
  unfold uniqueVulns
  rw [← e] at h1 h2
  exact ⟨h1, h2, hc⟩

theorem collectAffecting_eq (S : Sorter) (sem : Sem) (pkg : PackageDetails) (vs : List OSV) :
    collectAffecting S sem pkg vs =
      uniqueVulns (vs.filter fun v => v.withdrawn.isNone && v.isAffected S sem pkg) := by
  have key : ∀ acc, vs.foldl (fun acc v =>
      if v.withdrawn.isNone && v.isAffected S sem pkg && !includesVuln acc v then acc ++ [v] else acc) acc =
      (vs.filter fun v => v.withdrawn.isNone && v.isAffected S sem pkg).foldl
        (fun acc v => if includesVuln acc v then acc else acc ++ [v]) acc := by
    induction vs with
    | nil => intro acc; rfl
    | cons v vs ih =>
      intro acc
      rw [List.foldl_cons, List.filter_cons]
      cases h : v.withdrawn.isNone && v.isAffected S sem pkg
      · simp only [Bool.false_and, Bool.false_eq_true, if_false]; exact ih acc
      · simp only [Bool.true_and, if_true, List.foldl_cons]
        rw [ih]
        cases includesVuln acc v <;> rfl
  exact key []

/-- What a local database reports for a package, from the load sequence. -/
theorem affecting_loadAll (S : Sorter) (sem : Sem) (os : List OSV) (names : List Str) (pkg : PackageDetails) :
    (MemDB.loadAll os names).vulnerabilitiesAffectingPackage S sem pkg =
      uniqueVulns ((filed names pkg.key os).filter fun v => v.withdrawn.isNone && v.isAffected S sem pkg) := by
  rw [← collectAffecting_eq, ← get?_loadAll]
  unfold MemDB.vulnerabilitiesAffectingPackage
  cases (MemDB.loadAll os names).vulnerabilities.get? pkg.key <;> rfl

theorem mem_filed {names : List Str} {k : Str} {os : List OSV} {o : OSV} :
    o ∈ filed names k os ↔ o ∈ os ∧ (names = [] ∨ mightAffectPackages o names = true) ∧
      ∃ a ∈ o.affected, a.key = k := by
  unfold filed
  rw [List.mem_flatMap]
  have hcond : ∀ x : OSV, ¬ ((decide (names.length ≠ 0) && !mightAffectPackages x names) = true) ↔
      (names = [] ∨ mightAffectPackages x names = true) := by
    intro x
    cases names with
    | nil => simp
    | cons a as => simp
  constructor
  · rintro ⟨x, hx, h⟩
    split at h
    · simp at h
    · rename_i hc
      rw [List.mem_map] at h
      obtain ⟨a, ha, rfl⟩ := h
      rw [List.mem_filter] at ha
      exact ⟨hx, (hcond x).mp hc, a, ha.1, by simpa using ha.2⟩
  · rintro ⟨h1, h2, a, ha, hk⟩
    refine ⟨o, h1, ?_⟩
    rw [if_neg ((hcond o).mpr h2), List.mem_map]
    exact ⟨a, List.mem_filter.mpr ⟨ha, by simpa using hk⟩, rfl⟩

theorem ecoBase_self (e : Str) (h : ':' ∉ e) : ecoBase e = e := by
  unfold ecoBase
  induction e with
  | nil => rfl
  | cons c e ih =>
    simp only [List.mem_cons, not_or] at h
    rw [List.takeWhile_cons, if_pos (by simpa using Ne.symm h.1), ih h.2]

/-- Without a suffix in the package's ecosystem, the entry that matches is filed under the package's key. -/
theorem key_of_match (a : Affected) (pkg : PackageDetails) (hp : ':' ∉ pkg.ecosystem)
    (he : EcoMatch a.package.ecosystem pkg.ecosystem) (hn : a.package.normalizedName = pkg.name) :
    a.key = pkg.key := by
  unfold Affected.key PackageDetails.key
  rw [hn, normalizedEcosystem_eq, he.1, ecoBase_self _ hp]

end Osv
