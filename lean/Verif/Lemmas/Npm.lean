import Verif.Spec.Npm
import Verif.Lemmas.DetailMap
import Verif.Lemmas.Path
/-! # Lemmas about package-lock.json -/
namespace Osv
open Str Spec DetailMap

namespace Str
theorem cutLast?_cases (c : Char) (s : Str) :
    (cutLast? c s = none ∧ c ∉ s) ∨ ∃ a b, cutLast? c s = some (a, b) ∧ s = a ++ c :: b ∧ c ∉ b := by
  induction s with
  | nil => exact Or.inl ⟨rfl, by simp⟩
  | cons d s ih =>
    unfold cutLast?
    rcases ih with ⟨h, hc⟩ | ⟨a, b, h, e, hc⟩
    · rw [h]
      dsimp only
      by_cases hd : d = c
      · rw [if_pos hd]; exact Or.inr ⟨[], s, rfl, by rw [hd]; rfl, hc⟩
      · rw [if_neg hd]; exact Or.inl ⟨rfl, by simp [hc, Ne.symm hd]⟩
    · rw [h]
      exact Or.inr ⟨d :: a, b, rfl, by rw [e]; rfl, hc⟩
end Str

namespace Npm

theorem hasPrefix_false {s p : Str} : hasPrefix s p = false ↔ ∀ r, s ≠ p ++ r := by
  rw [← Bool.not_eq_true, hasPrefix_iff]
  exact ⟨fun h r e => h ⟨r, e⟩, fun h ⟨r, e⟩ => h r e⟩

/-- What one dependency leads to. -/
theorem dependency_none (name version : Str) :
    npmDependency name version = none ↔ ∃ r, version = g!"npm:" ++ r ∧ '@' ∉ r := by
  unfold npmDependency
  by_cases hf : hasPrefix version g!"file:" = true
  · rw [if_pos hf]
    obtain ⟨t, rfl⟩ := (hasPrefix_iff _ _).1 hf
    simp
  · rw [if_neg hf]
    dsimp only
    by_cases hn : hasPrefix version g!"npm:" = true
    · rw [if_pos hn]
      obtain ⟨t, rfl⟩ := (hasPrefix_iff _ _).1 hn
      have : (g!"npm:" ++ t).drop 4 = t := rfl
      rw [this]
      rcases cutLast?_cases '@' t with ⟨h, hc⟩ | ⟨a, b, h, e, hc⟩
      · rw [h]; simp only [Option.map_none, true_iff]; exact ⟨t, rfl, hc⟩
      · rw [h]
        simp only [Option.map_some, reduceCtorEq, false_iff]
        rintro ⟨r, e', hr⟩
        have : t = r := List.append_cancel_left e'
        subst this
        rw [e] at hr
        simp at hr
    · rw [if_neg hn]
      simp only [Option.map_some, reduceCtorEq, false_iff]
      rintro ⟨r, rfl, _⟩
      exact hn (hasPrefix_append _ _)

theorem dependency_some (name version : Str) (x : Str × PackageDetails) (h : npmDependency name version = some x) :
    NpmEntry tryExtractCommit name version x.2 ∧
    x.1 = x.2.name ++ '@' :: (if hasPrefix version g!"file:" = true ∨ tryExtractCommit version = [] then version else tryExtractCommit version) := by
  unfold npmDependency at h
  by_cases hf : hasPrefix version g!"file:" = true
  · rw [if_pos hf] at h
    injection h with h
    subst h
    obtain ⟨t, rfl⟩ := (hasPrefix_iff _ _).1 hf
    refine ⟨NpmEntry.file name t, ?_⟩
    rw [if_pos (Or.inl hf)]
    simp
  · rw [if_neg hf] at h
    dsimp only at h
    have hf' := hasPrefix_false.1 (by simpa using hf)
    obtain ⟨nv, hnv, rfl⟩ := Option.map_eq_some_iff.1 h
    have hcall : NpmCalled name version nv.1 nv.2 := by
      by_cases hn : hasPrefix version g!"npm:" = true
      · rw [if_pos hn] at hnv
        obtain ⟨t, rfl⟩ := (hasPrefix_iff _ _).1 hn
        have : (g!"npm:" ++ t).drop 4 = t := rfl
        rw [this] at hnv
        rcases cutLast?_cases '@' t with ⟨h, hc⟩ | ⟨a, b, h, e, hc⟩
        · rw [h] at hnv; cases hnv
        · rw [h] at hnv
          injection hnv with hnv
          subst hnv
          have := NpmCalled.aliased name a b hc
          rw [List.append_assoc, ← e] at this
          exact this
      · rw [if_neg hn] at hnv
        injection hnv with hnv
        subst hnv
        exact NpmCalled.own _ _ (hasPrefix_false.1 (by simpa using hn))
    by_cases hc : tryExtractCommit version = []
    · rw [if_neg (by simpa using hc), if_pos (Or.inr hc), hc]
      exact ⟨NpmEntry.registry _ _ _ _ hf' hcall hc, by simp⟩
    · rw [if_pos hc, if_neg (fun h => h.elim hf hc)]
      exact ⟨NpmEntry.git _ _ _ _ hf' hcall hc, by simp⟩

theorem called_unique {name version n w n' w' : Str} (h : NpmCalled name version n w) (h' : NpmCalled name version n' w') :
    n = n' ∧ w = w' := by
  cases h with
  | own _ hn => cases h' with
    | own => exact ⟨rfl, rfl⟩
    | aliased => exact absurd (List.append_assoc _ _ _) (hn _)
  | aliased _ _ hw =>
    generalize e : g!"npm:" ++ n ++ '@' :: w = v at h'
    cases h' with
    | own _ hn => exact absurd e.symm (by rw [List.append_assoc]; exact hn _)
    | aliased _ _ hw' =>
      rw [List.append_assoc, List.append_assoc] at e
      have e := List.append_cancel_left e
      have h1 := cutLast?_append '@' n w hw
      rw [e, cutLast?_append '@' n' w' hw'] at h1
      injection h1 with h1
      injection h1 with h1 h2
      exact ⟨h1.symm, h2.symm⟩

theorem entry_unique {commit : Str → Str} {name version : Str} {p q : PackageDetails}
    (h : NpmEntry commit name version p) (h' : NpmEntry commit name version q) : p = q := by
  cases h with
  | file path => cases h' with
    | file => rfl
    | git _ n w hf => exact absurd rfl (hf path)
    | registry _ n w hf => exact absurd rfl (hf path)
  | git _ n w hf hc hne => cases h' with
    | file path => exact absurd rfl (hf path)
    | git _ n' w' _ hc' => rw [(called_unique hc hc').1]
    | registry _ n' w' _ hc' he => exact absurd he hne
  | registry _ n w hf hc he => cases h' with
    | file path => exact absurd rfl (hf path)
    | git _ n' w' _ hc' hne => exact absurd he hne
    | registry _ n' w' _ hc' => rw [(called_unique hc hc').1, (called_unique hc hc').2]

/-- The entries that the loop over a tree adds. -/
def FromDeps (t : NpmDeps) (x : Str × PackageDetails) : Prop :=
  ∃ name version, NpmDepIn t name version ∧ npmDependency name version = some x

theorem depIn_nil {n v : Str} : ¬ NpmDepIn .nil n v := nofun

theorem depIn_cons {name version : Str} {deps rest : NpmDeps} {n v : Str} :
    NpmDepIn (.cons name (.mk version deps) rest) n v ↔
      (n = name ∧ v = version) ∨ NpmDepIn deps n v ∨ NpmDepIn rest n v := by
  constructor
  · intro h
    cases h with
    | here => exact Or.inl ⟨rfl, rfl⟩
    | inner h => exact Or.inr (Or.inl h)
    | next h => exact Or.inr (Or.inr h)
  · rintro (⟨rfl, rfl⟩ | h | h)
    · exact .here
    · exact .inner h
    · exact .next h

theorem fromDeps_cons {name version : Str} {deps rest : NpmDeps} {x : Str × PackageDetails} :
    FromDeps (.cons name (.mk version deps) rest) x ↔
      npmDependency name version = some x ∨ FromDeps deps x ∨ FromDeps rest x := by
  unfold FromDeps
  simp only [depIn_cons]
  constructor
  · rintro ⟨n, v, ⟨rfl, rfl⟩ | h | h, e⟩
    · exact Or.inl e
    · exact Or.inr (Or.inl ⟨n, v, h, e⟩)
    · exact Or.inr (Or.inr ⟨n, v, h, e⟩)
  · rintro (e | ⟨n, v, h, e⟩ | ⟨n, v, h, e⟩)
    · exact ⟨name, version, Or.inl ⟨rfl, rfl⟩, e⟩
    · exact ⟨n, v, Or.inr (Or.inl h), e⟩
    · exact ⟨n, v, Or.inr (Or.inr h), e⟩

mutual
theorem loop_adds (t : NpmDeps) (details m : SMap PackageDetails) (h : npmDepsLoop details t = some m) :
    Adds details m (FromDeps t) := by
  match t with
  | .nil =>
    simp only [npmDepsLoop, Option.some.injEq] at h
    subst h
    exact (Adds.refl _).congr fun x => ⟨False.elim, fun ⟨_, _, h, _⟩ => depIn_nil h⟩
  | .cons name (.mk version deps) rest =>
    simp only [npmDepsLoop] at h
    obtain ⟨d', h1, h2⟩ := Option.bind_eq_some_iff.1 h
    have a1 := step_adds (.mk version deps) name details d' h1
    have a2 := loop_adds rest d' m h2
    refine (a1.trans a2).congr fun x => ?_
    rw [fromDeps_cons, fromDeps_cons]
    have : ¬ FromDeps .nil x := fun ⟨_, _, h, _⟩ => depIn_nil h
    simp [this, or_assoc]
theorem step_adds (d : NpmDep) (name : Str) (details m : SMap PackageDetails) (h : npmDepStep details name d = some m) :
    Adds details m (FromDeps (.cons name d .nil)) := by
  match d with
  | .mk version deps =>
    simp only [npmDepStep] at h
    obtain ⟨inner, h1, h2⟩ := Option.bind_eq_some_iff.1 h
    obtain ⟨x, h3, rfl⟩ := Option.map_eq_some_iff.1 h2
    have a1 := loop_adds deps [] inner h1
    have a2 := Adds.fold details inner
    -- the merged map holds the entries of the inner map
    have a3 : Adds details (mergeDetails details inner) (FromDeps deps) := by
      refine ⟨?_, ?_, a2.2.2⟩
      · intro y hy
        rcases a2.1 y hy with h | h
        · exact Or.inl h
        · rcases a1.1 y h with h | h
          · cases h
          · exact Or.inr h
      · intro k
        rw [show mergeDetails details inner = inner.foldl (fun m x => m.set x.1 x.2) details from rfl, a2.2.1]
        constructor
        · rintro (h | ⟨y, hy, rfl⟩)
          · exact Or.inl h
          · rcases a1.1 y hy with h | h
            · cases h
            · exact Or.inr ⟨y, h, rfl⟩
        · rintro (h | ⟨y, hy, rfl⟩)
          · exact Or.inl h
          · have := (a1.2.1 y.1).2 (Or.inr ⟨y, hy, rfl⟩)
            obtain ⟨z, hz, e⟩ := List.mem_map.1 this
            exact Or.inr ⟨z, hz, e⟩
    refine (a3.trans (Adds.set _ x)).congr fun y => ?_
    rw [fromDeps_cons, h3]
    have : ¬ FromDeps .nil y := fun ⟨_, _, h, _⟩ => depIn_nil h
    constructor
    · rintro (h | rfl)
      · exact Or.inr (Or.inl h)
      · exact Or.inl rfl
    · rintro (h | h | h)
      · exact Or.inr (Option.some.inj h).symm
      · exact Or.inl h
      · exact absurd h this
end

mutual
theorem loop_none (t : NpmDeps) (details : SMap PackageDetails) :
    npmDepsLoop details t = none ↔ ∃ n v, NpmDepIn t n v ∧ npmDependency n v = none := by
  match t with
  | .nil =>
    simp only [npmDepsLoop, reduceCtorEq, false_iff]
    rintro ⟨_, _, h, _⟩
    exact depIn_nil h
  | .cons name (.mk version deps) rest =>
    simp only [npmDepsLoop, Option.bind_eq_none_iff]
    have hs := step_none (.mk version deps) name details
    simp only [depIn_cons, depIn_nil, or_false] at hs ⊢
    constructor
    · intro h
      cases h1 : npmDepStep details name (.mk version deps) with
      | none =>
        obtain ⟨n, v, h, e⟩ := hs.1 h1
        exact ⟨n, v, h.elim Or.inl (fun h => Or.inr (Or.inl h)), e⟩
      | some d' =>
        obtain ⟨n, v, h, e⟩ := (loop_none rest d').1 (h d' h1)
        exact ⟨n, v, Or.inr (Or.inr h), e⟩
    · rintro ⟨n, v, h | h | h, e⟩ d' h1
      · rw [hs.2 ⟨n, v, Or.inl h, e⟩] at h1; cases h1
      · rw [hs.2 ⟨n, v, Or.inr h, e⟩] at h1; cases h1
      · exact (loop_none rest d').2 ⟨n, v, h, e⟩
theorem step_none (d : NpmDep) (name : Str) (details : SMap PackageDetails) :
    npmDepStep details name d = none ↔ ∃ n v, NpmDepIn (.cons name d .nil) n v ∧ npmDependency n v = none := by
  match d with
  | .mk version deps =>
    simp only [npmDepStep, Option.bind_eq_none_iff, Option.map_eq_none_iff, depIn_cons, depIn_nil, or_false]
    constructor
    · intro h
      cases h1 : npmDepsLoop [] deps with
      | none =>
        obtain ⟨n, v, h, e⟩ := (loop_none deps []).1 h1
        exact ⟨n, v, Or.inr h, e⟩
      | some inner => exact ⟨name, version, Or.inl ⟨rfl, rfl⟩, h inner h1⟩
    · rintro ⟨n, v, ⟨rfl, rfl⟩ | h, e⟩ inner h1
      · exact e
      · rw [(loop_none deps []).2 ⟨n, v, h, e⟩] at h1; cases h1
end

end Npm
end Osv
