import Verif.Model.LockBun
import Verif.Model.LockRenv
import Verif.Model.LockPnpm
import Verif.Lemmas.GoMod
/-! # Loops over maps in two orders -/
namespace Osv
open Str

/-- Two maps that are built from the same entries are the same, unless two different packages share a key. -/
theorem DetailMap.Adds.perm {m m' : SMap PackageDetails} {P : Str × PackageDetails → Prop} (h : DetailMap.Adds [] m P)
    (h' : DetailMap.Adds [] m' P) (hc : ∀ x y, P x → P y → x.1 = y.1 → x.2 = y.2) : m.Perm m' :=
  DetailMap.nodup_keys_perm (h.2.2 (by simp)) (h'.2.2 (by simp)) fun x => (h.mem hc x).trans (h'.mem hc x).symm

namespace MapOrder

theorem renvLoop_eq (l : SMap RenvPackage) : renvLoop l = l.filterMap fun x =>
    if x.2.repository ≠ [] && x.2.repository ≠ cranEcosystem then none
    else some ⟨x.2.package, x.2.version, [], cranEcosystem, cranEcosystem⟩ := by
  induction l with
  | nil => rfl
  | cons x l ih =>
    obtain ⟨k, p⟩ := x
    unfold renvLoop
    by_cases h : (p.repository ≠ [] && p.repository ≠ cranEcosystem) = true
    · rw [if_pos h, List.filterMap_cons]
      simp only [if_pos h]
      exact ih
    · rw [if_neg h, List.filterMap_cons]
      simp only [if_neg h]
      rw [ih]

/-- What one tuple of a bun.lock gives. -/
def bunOne (t : List JVal) : Option PackageDetails :=
  (structurePackageDetails t).bind fun d =>
    if d.1 = [] && d.2.1 = [] && d.2.2 = [] then none else some ⟨d.1, d.2.1, d.2.2, npmEcosystem, npmEcosystem⟩

theorem bunLoop_eq (l : SMap (List JVal)) : bunLoop l =
    if ∃ x ∈ l, x.2 = [] then none else some (l.filterMap fun x => bunOne x.2) := by
  induction l with
  | nil => rfl
  | cons x l ih =>
    obtain ⟨k, t⟩ := x
    unfold bunLoop
    rw [ih]
    by_cases ht : t = []
    · subst ht
      rw [if_pos (show ∃ x ∈ (k, []) :: l, x.2 = [] from ⟨(k, []), List.mem_cons_self, rfl⟩)]
      rfl
    · obtain ⟨d, hd⟩ : ∃ d, structurePackageDetails t = some d := by
        unfold structurePackageDetails
        split
        · exact absurd rfl ht
        · exact ⟨_, rfl⟩
        · exact ⟨_, rfl⟩
      rw [hd, Option.bind_some]
      by_cases hl : ∃ x ∈ l, x.2 = []
      · have h2 : ∃ x ∈ (k, t) :: l, x.2 = [] := by obtain ⟨x, hx, e⟩ := hl; exact ⟨x, List.mem_cons_of_mem _ hx, e⟩
        rw [if_pos hl, if_pos h2]
        split <;> rfl
      · have h2 : ¬ ∃ x ∈ (k, t) :: l, x.2 = [] := by
          rintro ⟨x, hx, e⟩
          rcases List.mem_cons.1 hx with rfl | hx
          · exact ht e
          · exact hl ⟨x, hx, e⟩
        rw [if_neg hl, if_neg h2]
        rw [List.filterMap_cons]
        simp only [bunOne, hd, Option.bind_some]
        by_cases he : (d.1 = [] && d.2.1 = [] && d.2.2 = []) = true
        · simp only [if_pos he]
        · simp only [if_neg he]; rfl

/-- What one package of a pnpm-lock.yaml gives. -/
def pnpmOne (nine : Bool) (x : Str × PnpmLockPackage) : Option PackageDetails :=
  match extractPnpm nine x.1 with
  | some (some nv) =>
    let name := if x.2.name ≠ [] then x.2.name else nv.1
    let version := if x.2.version ≠ [] then x.2.version else nv.2
    if name = [] || version = [] then none else some ⟨name, version, pnpmCommit x.2, npmEcosystem, npmEcosystem⟩
  | _ => none

theorem pnpm_good (nine : Bool) (l : SMap PnpmLockPackage) (h : ∀ x ∈ l, ∃ nv, extractPnpm nine x.1 = some (some nv)) :
    pnpmLoop nine l = some (some (l.filterMap (pnpmOne nine))) := by
  induction l with
  | nil => rfl
  | cons x l ih =>
    obtain ⟨nv, hnv⟩ := h x (by simp)
    obtain ⟨s, p⟩ := x
    unfold pnpmLoop
    dsimp only at hnv
    simp only [List.filterMap_cons, pnpmOne, hnv]
    rw [ih fun y hy => h y (by simp [hy])]
    by_cases he : ((if p.name ≠ [] then p.name else nv.1) = [] || (if p.version ≠ [] then p.version else nv.2) = []) = true
    · simp only [if_pos he]
    · simp only [if_neg he]; rfl

/-- Some key is bad, none panics. -/
theorem pnpm_invalid (nine : Bool) (l : SMap PnpmLockPackage) (h : ∀ x ∈ l, extractPnpm nine x.1 ≠ none)
    (hx : ∃ x ∈ l, extractPnpm nine x.1 = some none) : pnpmLoop nine l = some none := by
  induction l with
  | nil => obtain ⟨x, hx, _⟩ := hx; cases hx
  | cons y l ih =>
    obtain ⟨s, p⟩ := y
    unfold pnpmLoop
    cases he : extractPnpm nine s with
    | none => exact absurd he (h (s, p) (by simp))
    | some o =>
      cases o with
      | none => rfl
      | some nv =>
        have : ∃ x ∈ l, extractPnpm nine x.1 = some none := by
          obtain ⟨x, hx, e⟩ := hx
          rcases List.mem_cons.1 hx with rfl | hx
          · rw [he] at e; cases e
          · exact ⟨x, hx, e⟩
        simp only [ih (fun x hx => h x (by simp [hx])) this]
        simp only [Option.map_none, Option.map_some, ite_self]

/-- Some key panics, none is merely bad. -/
theorem pnpm_panic (nine : Bool) (l : SMap PnpmLockPackage) (h : ∀ x ∈ l, extractPnpm nine x.1 ≠ some none)
    (hx : ∃ x ∈ l, extractPnpm nine x.1 = none) : pnpmLoop nine l = none := by
  induction l with
  | nil => obtain ⟨x, hx, _⟩ := hx; cases hx
  | cons y l ih =>
    obtain ⟨s, p⟩ := y
    unfold pnpmLoop
    cases he : extractPnpm nine s with
    | none => rfl
    | some o =>
      cases o with
      | none => exact absurd he (h (s, p) (by simp))
      | some nv =>
        have : ∃ x ∈ l, extractPnpm nine x.1 = none := by
          obtain ⟨x, hx, e⟩ := hx
          rcases List.mem_cons.1 hx with rfl | hx
          · rw [he] at e; cases e
          · exact ⟨x, hx, e⟩
        simp only [ih (fun x hx => h x (by simp [hx])) this]
        simp only [Option.map_none, ite_self]

theorem steps_cases (rs : List GoReplace) (k : Str) (d : PackageDetails) :
    GoMod.steps rs k d = d ∨ ∃ r ∈ rs, GoMod.steps rs k d = goDetails r.new := by
  induction rs generalizing d with
  | nil => exact Or.inl rfl
  | cons r rs ih =>
    rw [show GoMod.steps (r :: rs) k d = GoMod.steps rs k (GoMod.step r k d) from rfl]
    rcases ih (GoMod.step r k d) with h | ⟨s, hs, h⟩
    · rw [h]
      unfold GoMod.step
      split
      · split
        · exact Or.inr ⟨r, by simp, rfl⟩
        · exact Or.inl rfl
      · split
        · exact Or.inr ⟨r, by simp, rfl⟩
        · exact Or.inl rfl
    · exact Or.inr ⟨s, by simp [hs], h⟩

/-- Two maps that differ in the package under one key hold different packages. -/
theorem values_set (m : SMap PackageDetails) (k : Str) (a b : PackageDetails)
    (h : ((m.set k a).map (·.2)).Perm ((m.set k b).map (·.2))) : a = b := by
  induction m with
  | nil =>
    simp only [SMap.set, List.map_cons, List.map_nil] at h
    exact (List.perm_singleton.1 h |> List.cons.inj).1
  | cons x m ih =>
    obtain ⟨k', v⟩ := x
    unfold SMap.set at h
    by_cases hk : k' = k
    · rw [if_pos hk, if_pos hk] at h
      simp only [List.map_cons] at h
      have hc := h.count_eq a
      simp only [List.count_cons, beq_self_eq_true, if_true] at hc
      by_cases e : b = a
      · exact e.symm
      · rw [if_neg (by simpa using e)] at hc
        omega
    · rw [if_neg hk, if_neg hk] at h
      exact ih ((List.perm_cons _).1 h)

theorem set_set (m : SMap PackageDetails) (k : Str) (a b : PackageDetails) : (m.set k a).set k b = m.set k b := by
  induction m with
  | nil => simp [SMap.set]
  | cons x m ih =>
    obtain ⟨k', v⟩ := x
    by_cases hk : k' = k
    · simp [SMap.set, hk]
    · simp [SMap.set, hk, ih]

end MapOrder
end Osv
