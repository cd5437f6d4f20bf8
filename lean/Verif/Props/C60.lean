import Verif.Lemmas.Databases
/-! # C60 Ecosystem databases follow the packages -/
namespace Osv
open Spec

/-- Exactly the non-empty ecosystems of the packages, each once, sorted. -/
theorem C60_ecosystems (iter : List Str → List Str) (hiter : ∀ l, (iter l).Perm l) (ps : List PackageDetails) :
    (∀ e, e ∈ ecosystemsOf iter ps ↔ e ≠ [] ∧ ∃ p ∈ ps, p.ecosystem = e) ∧
    (ecosystemsOf iter ps).Nodup ∧ (ecosystemsOf iter ps).Pairwise Str.Le := by
  refine ⟨fun e => mem_ecosystemsOf iter hiter ps e, ?_, sortStr_sorted _⟩
  unfold ecosystemsOf
  refine (sortStr_perm _).nodup_iff.2 (List.Nodup.sublist List.filter_sublist ?_)
  exact (hiter _).nodup_iff.2 (nodup_dedupStr _)

/-- The iteration order of the map makes no difference. -/
theorem C60_order_independent (iter iter' : List Str → List Str) (h : ∀ l, (iter l).Perm l) (h' : ∀ l, (iter' l).Perm l)
    (ps : List PackageDetails) : ecosystemsOf iter ps = ecosystemsOf iter' ps :=
  sortStr_eq_of_perm (((h _).trans (h' _).symm).filter _)

/-- Nor does the order of the packages. -/
theorem C60_package_order (iter : List Str → List Str) (h : ∀ l, (iter l).Perm l) (ps ps' : List PackageDetails)
    (hp : ps.Perm ps') : ecosystemsOf iter ps = ecosystemsOf iter ps' := by
  unfold ecosystemsOf
  refine sortStr_eq_of_perm (List.Perm.filter _ ((h _).trans (.trans ?_ (h _).symm)))
  refine (List.perm_ext_iff_of_nodup (nodup_dedupStr _) (nodup_dedupStr _)).2 fun a => ?_
  rw [mem_dedupStr, mem_dedupStr]
  exact (hp.map _).mem_iff

theorem nodup_addEcosystems (l acc : List Ecosystem) (h : acc.Nodup) : (l.foldl addEcosystem acc).Nodup := by
  induction l generalizing acc with
  | nil => exact h
  | cons x l ih =>
    refine ih _ ?_
    unfold addEcosystem
    split
    · exact h
    · rename_i hx
      rw [List.contains_iff_mem] at hx
      rw [List.nodup_append]
      exact ⟨h, by simp, fun a ha b hb e => hx (by rw [← List.mem_singleton.1 hb, ← e]; exact ha)⟩

/-- The ecosystems of several lockfiles: those of the packages of all lockfiles that could be read, each once. -/
theorem C60_collect (env : Env) (hiter : ∀ l, (env.iter l).Perm l) (files : List FileEntry) :
    (∀ e, e ∈ collectEcosystems env files ↔
      e ≠ [] ∧ ∃ x ∈ files, x.err = false ∧ ∃ p ∈ x.lockf.packages, p.ecosystem = e) ∧
    (collectEcosystems env files).Nodup := by
  unfold collectEcosystems
  have key : ∀ (files : List FileEntry) (acc : List Ecosystem), acc.Nodup →
      (∀ e, e ∈ files.foldl (fun acc x => if x.err then acc else (ecosystemsOf env.iter x.lockf.packages).foldl addEcosystem acc) acc ↔
        e ∈ acc ∨ e ≠ [] ∧ ∃ x ∈ files, x.err = false ∧ ∃ p ∈ x.lockf.packages, p.ecosystem = e) ∧
      (files.foldl (fun acc x => if x.err then acc else (ecosystemsOf env.iter x.lockf.packages).foldl addEcosystem acc) acc).Nodup := by
    intro files
    induction files with
    | nil => intro acc h; exact ⟨fun e => by simp, h⟩
    | cons x files ih =>
      intro acc h
      rw [List.foldl_cons]
      cases hx : x.err with
      | true =>
        obtain ⟨h1, h2⟩ := ih acc h
        refine ⟨fun e => ?_, h2⟩
        simp only [if_true]
        rw [h1]
        simp [hx]
      | false =>
        simp only [Bool.false_eq_true, if_false]
        obtain ⟨h1, h2⟩ := ih _ (nodup_addEcosystems (ecosystemsOf env.iter x.lockf.packages) acc h)
        refine ⟨fun e => ?_, h2⟩
        rw [h1, mem_addEcosystems, mem_ecosystemsOf _ hiter, or_assoc, ← and_or_left]
        simp only [List.mem_cons, exists_eq_or_imp, hx, true_and]
  obtain ⟨h1, h2⟩ := key files [] (by simp)
  exact ⟨fun e => by rw [h1]; simp, h2⟩

example : ecosystemsOf List.reverse [{ name := [], version := [], ecosystem := g!"npm", compareAs := [] },
    { name := [], version := [], ecosystem := [], compareAs := [] }, { name := [], version := [], ecosystem := g!"Go", compareAs := [] },
    { name := [], version := [], ecosystem := g!"npm", compareAs := [] }] = [g!"Go", g!"npm"] := by decide

end Osv
