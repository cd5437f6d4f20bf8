import Verif.Model.LockPip
import Verif.Lemmas.MemDB
/-! # Maps of packages keyed by name and version -/
namespace Osv
open Str

theorem SMap.mem_set {α : Type} (m : SMap α) (k : Str) (v : α) (x : Str × α) (h : x ∈ m.set k v) :
    x = (k, v) ∨ x ∈ m := by
  induction m with
  | nil => simp [SMap.set] at h; exact Or.inl h
  | cons b m ih =>
    unfold SMap.set at h
    split at h
    · rename_i hk
      rcases List.mem_cons.1 h with rfl | h
      · exact Or.inl (by rw [hk])
      · exact Or.inr (by simp [h])
    · rcases List.mem_cons.1 h with rfl | h
      · exact Or.inr (by simp)
      · rcases ih h with h | h
        · exact Or.inl h
        · exact Or.inr (by simp [h])

theorem SMap.set_mem {α : Type} (m : SMap α) (k : Str) (v : α) : (k, v) ∈ m.set k v := by
  induction m with
  | nil => simp [SMap.set]
  | cons b m ih =>
    unfold SMap.set
    split
    · rename_i hk; rw [hk]; simp
    · simp [ih]

theorem SMap.mem_keys_set {α : Type} (m : SMap α) (k j : Str) (v : α) :
    j ∈ (m.set k v).map (·.1) ↔ j = k ∨ j ∈ m.map (·.1) := by
  rw [SMap.keys_set]
  split
  · rename_i h
    constructor
    · exact Or.inr
    · rintro (rfl | h')
      · exact h
      · exact h'
  · rw [List.mem_append, List.mem_singleton]
    exact Or.comm

namespace DetailMap

theorem fold_mem (l : List PackageDetails) (m : SMap PackageDetails) (x : Str × PackageDetails)
    (h : x ∈ l.foldl addDetail m) : x ∈ m ∨ ∃ d ∈ l, x = (detailKey d, d) := by
  induction l generalizing m with
  | nil => exact Or.inl h
  | cons d l ih =>
    rcases ih _ h with h | ⟨d', hd', e⟩
    · rcases SMap.mem_set _ _ _ _ h with h | h
      · exact Or.inr ⟨d, by simp, h⟩
      · exact Or.inl h
    · exact Or.inr ⟨d', by simp [hd'], e⟩

theorem fold_keys (l : List PackageDetails) (m : SMap PackageDetails) (k : Str) :
    k ∈ (l.foldl addDetail m).map (·.1) ↔ k ∈ m.map (·.1) ∨ ∃ d ∈ l, k = detailKey d := by
  induction l generalizing m with
  | nil => simp
  | cons d l ih =>
    rw [List.foldl_cons, ih]
    unfold addDetail
    rw [SMap.mem_keys_set]
    constructor
    · rintro ((h | h) | ⟨d', h1, h2⟩)
      · exact Or.inr ⟨d, by simp, h⟩
      · exact Or.inl h
      · exact Or.inr ⟨d', by simp [h1], h2⟩
    · rintro (h | ⟨d', h1, h2⟩)
      · exact Or.inl (Or.inr h)
      · rcases List.mem_cons.1 h1 with rfl | h1
        · exact Or.inl (Or.inl h2)
        · exact Or.inr ⟨d', h1, h2⟩

theorem fold_nodup (l : List PackageDetails) (m : SMap PackageDetails) (h : (m.map (·.1)).Nodup) :
    ((l.foldl addDetail m).map (·.1)).Nodup := by
  induction l generalizing m with
  | nil => exact h
  | cons d l ih => exact ih _ (SMap.nodup_set _ _ _ h)

/-- Keys are determined by the packages. -/
def Keyed (m : SMap PackageDetails) : Prop := ∀ x ∈ m, x.1 = detailKey x.2

theorem keyed_add {m : SMap PackageDetails} (h : Keyed m) (d : PackageDetails) : Keyed (addDetail m d) := by
  intro x hx
  rcases SMap.mem_set _ _ _ _ hx with rfl | hx
  · rfl
  · exact h x hx

theorem keyed_fold {m : SMap PackageDetails} (h : Keyed m) (l : List PackageDetails) : Keyed (l.foldl addDetail m) := by
  induction l generalizing m with
  | nil => exact h
  | cons d l ih => exact ih (keyed_add h d)

/-- The packages of a keyed map: one per key. -/
theorem keyed_values {m : SMap PackageDetails} (h : Keyed m) : (m.map (·.2)).map detailKey = m.map (·.1) := by
  rw [List.map_map]
  apply List.map_congr_left
  intro x hx
  exact (h x hx).symm

theorem key_inj {d e : PackageDetails} (h : detailKey d = detailKey e) (hd : '@' ∉ d.name) (he : '@' ∉ e.name) :
    d.name = e.name ∧ d.version = e.version := by
  unfold detailKey at h
  have h1 := cut?_char '@' d.name d.version hd
  have h2 := cut?_char '@' e.name e.version he
  have e' : d.name ++ '@' :: d.version = e.name ++ '@' :: e.version := by simpa using h
  rw [e', h2] at h1
  have := Prod.mk.inj (Option.some.inj h1)
  exact ⟨this.1.symm, this.2.symm⟩

/-- `m` is `old` with entries of `P` added, each key of `P` at least once. -/
def Adds (old m : SMap PackageDetails) (P : Str × PackageDetails → Prop) : Prop :=
  (∀ x ∈ m, x ∈ old ∨ P x) ∧ (∀ k, k ∈ m.map (·.1) ↔ k ∈ old.map (·.1) ∨ ∃ x, P x ∧ x.1 = k) ∧
  ((old.map (·.1)).Nodup → (m.map (·.1)).Nodup)

theorem Adds.refl (m : SMap PackageDetails) : Adds m m (fun _ => False) :=
  ⟨fun _ h => Or.inl h, fun k => by simp, fun h => h⟩

theorem Adds.set (m : SMap PackageDetails) (x : Str × PackageDetails) : Adds m (m.set x.1 x.2) (fun y => y = x) := by
  refine ⟨?_, ?_, fun h => SMap.nodup_set _ _ _ h⟩
  · intro y hy
    rcases SMap.mem_set _ _ _ _ hy with h | h
    · exact Or.inr h
    · exact Or.inl h
  · intro k
    rw [SMap.mem_keys_set]
    constructor
    · rintro (rfl | h)
      · exact Or.inr ⟨x, rfl, rfl⟩
      · exact Or.inl h
    · rintro (h | ⟨y, rfl, rfl⟩)
      · exact Or.inr h
      · exact Or.inl rfl

theorem Adds.trans {a b c : SMap PackageDetails} {P Q : Str × PackageDetails → Prop} (h1 : Adds a b P) (h2 : Adds b c Q) :
    Adds a c (fun x => P x ∨ Q x) := by
  refine ⟨?_, ?_, fun h => h2.2.2 (h1.2.2 h)⟩
  · intro x hx
    rcases h2.1 x hx with h | h
    · rcases h1.1 x h with h | h
      · exact Or.inl h
      · exact Or.inr (Or.inl h)
    · exact Or.inr (Or.inr h)
  · intro k
    rw [h2.2.1, h1.2.1]
    constructor
    · rintro ((h | ⟨x, h, e⟩) | ⟨x, h, e⟩)
      · exact Or.inl h
      · exact Or.inr ⟨x, Or.inl h, e⟩
      · exact Or.inr ⟨x, Or.inr h, e⟩
    · rintro (h | ⟨x, h | h, e⟩)
      · exact Or.inl (Or.inl h)
      · exact Or.inl (Or.inr ⟨x, h, e⟩)
      · exact Or.inr ⟨x, h, e⟩

theorem Adds.congr {a b : SMap PackageDetails} {P Q : Str × PackageDetails → Prop} (h : Adds a b P) (e : ∀ x, P x ↔ Q x) :
    Adds a b Q := by
  have : P = Q := funext fun x => propext (e x)
  rwa [this] at h

theorem Adds.fold (old : SMap PackageDetails) (l : List (Str × PackageDetails)) :
    Adds old (l.foldl (fun m x => m.set x.1 x.2) old) (fun x => x ∈ l) := by
  induction l generalizing old with
  | nil => exact (Adds.refl old).congr (by simp)
  | cons y l ih => exact ((Adds.set old y).trans (ih _)).congr (by simp)

/-- Without two different packages under one key, all packages are there. -/
theorem Adds.mem {m : SMap PackageDetails} {P : Str × PackageDetails → Prop} (h : Adds [] m P)
    (hc : ∀ x y, P x → P y → x.1 = y.1 → x.2 = y.2) (x : Str × PackageDetails) : x ∈ m ↔ P x := by
  constructor
  · intro hx
    rcases h.1 x hx with h | h
    · cases h
    · exact h
  · intro hx
    have := (h.2.1 x.1).2 (Or.inr ⟨x, hx, rfl⟩)
    obtain ⟨y, hy, e⟩ := List.mem_map.1 this
    have hPy : P y := by
      rcases h.1 y hy with h | h
      · cases h
      · exact h
    have e2 := hc y x hPy hx e
    have : y = x := Prod.ext e e2
    rw [← this]; exact hy

theorem nodup_keys_perm {m m' : SMap PackageDetails} (h : (m.map (·.1)).Nodup) (h' : (m'.map (·.1)).Nodup)
    (e : ∀ x, x ∈ m ↔ x ∈ m') : m.Perm m' := by
  have n1 : m.Nodup := List.Pairwise.of_map (·.1) (fun a b h e => h (congrArg (·.1) e)) h
  have n2 : m'.Nodup := List.Pairwise.of_map (·.1) (fun a b h e => h (congrArg (·.1) e)) h'
  exact (List.perm_ext_iff_of_nodup n1 n2).2 e

/-- Different packages have different keys if no key occurs twice. -/
theorem eq_of_key {α β : Type} {key : α → β} {l : List α} (h : (l.map key).Nodup) {x y : α} (hx : x ∈ l) (hy : y ∈ l)
    (e : key x = key y) : x = y := by
  induction l with
  | nil => cases hx
  | cons z l ih =>
    rw [List.map_cons, List.nodup_cons] at h
    rcases List.mem_cons.1 hx with rfl | hx' <;> rcases List.mem_cons.1 hy with rfl | hy'
    · rfl
    · exact absurd (List.mem_map.2 ⟨y, hy', e.symm⟩) h.1
    · exact absurd (List.mem_map.2 ⟨x, hx', e⟩) h.1
    · exact ih h.2 hx' hy'

/-- All packages are there if and only if no two different ones have the same key. -/
theorem Adds.exact_key {key : PackageDetails → Str} {m : SMap PackageDetails} {E : PackageDetails → Prop}
    (h : Adds [] m (fun x => E x.2 ∧ x.1 = key x.2)) {pkgs : List PackageDetails} (hp : pkgs.Perm (m.map (·.2))) :
    (∀ p, p ∈ pkgs ↔ E p) ↔ ∀ p q, E p → E q → key p = key q → p = q := by
  have hP : ∀ x ∈ m, E x.2 ∧ x.1 = key x.2 := fun x hx => by
    rcases h.1 x hx with h | h
    · cases h
    · exact h
  have hnd : (pkgs.map key).Nodup := by
    refine ((hp.map key).nodup_iff).2 ?_
    have e : (m.map (·.2)).map key = m.map (·.1) := by
      rw [List.map_map]
      exact List.map_congr_left fun x hx => (hP x hx).2.symm
    rw [e]
    exact h.2.2 (by simp)
  constructor
  · intro hx p q hp hq e
    exact eq_of_key hnd ((hx p).2 hp) ((hx q).2 hq) e
  · intro hk p
    constructor
    · intro hm
      obtain ⟨x, hx, rfl⟩ := List.mem_map.1 (hp.mem_iff.1 hm)
      exact (hP x hx).1
    · intro he
      obtain ⟨y, hy, e⟩ := List.mem_map.1 ((h.2.1 _).2 (Or.inr ⟨(key p, p), ⟨he, rfl⟩, rfl⟩))
      have := hk y.2 p (hP y hy).1 he ((hP y hy).2.symm.trans e)
      exact hp.mem_iff.2 (List.mem_map.2 ⟨y, hy, this⟩)

theorem Adds.exact_iff {m : SMap PackageDetails} {E : PackageDetails → Prop}
    (h : Adds [] m (fun x => E x.2 ∧ x.1 = x.2.name ++ g!"@" ++ x.2.version)) {pkgs : List PackageDetails}
    (hp : pkgs.Perm (m.map (·.2))) :
    (∀ p, p ∈ pkgs ↔ E p) ↔
      ∀ p q, E p → E q → p.name ++ g!"@" ++ p.version = q.name ++ g!"@" ++ q.version → p = q := h.exact_key hp

end DetailMap
end Osv
