import Verif.Lemmas.MapOrder
import Verif.Lemmas.NuGet
import Verif.Model.LockPip
import Verif.Model.LockPipenv
/-! # Maps that are filled in different orders -/
namespace Osv
open Str

namespace MapOrder

theorem mem_set_iff {m : SMap PackageDetails} (hn : (m.map (·.1)).Nodup) (k : Str) (v : PackageDetails)
    (x : Str × PackageDetails) : x ∈ m.set k v ↔ x = (k, v) ∨ (x ∈ m ∧ x.1 ≠ k) := by
  induction m with
  | nil => simp [SMap.set]
  | cons b m ih =>
    rw [List.map_cons, List.nodup_cons] at hn
    unfold SMap.set
    by_cases hk : b.1 = k
    · rw [if_pos hk, List.mem_cons, hk]
      constructor
      · rintro (h | h)
        · exact Or.inl h
        · exact Or.inr ⟨List.mem_cons_of_mem _ h, fun e => hn.1 (by rw [hk, ← e]; exact List.mem_map.2 ⟨x, h, rfl⟩)⟩
      · rintro (h | ⟨h, hne⟩)
        · exact Or.inl h
        · rcases List.mem_cons.1 h with rfl | h
          · exact absurd hk hne
          · exact Or.inr h
    · rw [if_neg hk, List.mem_cons, ih hn.2]
      constructor
      · rintro (rfl | h | ⟨h, hne⟩)
        · exact Or.inr ⟨List.mem_cons_self, hk⟩
        · exact Or.inl h
        · exact Or.inr ⟨List.mem_cons_of_mem _ h, hne⟩
      · rintro (h | ⟨h, hne⟩)
        · exact Or.inr (Or.inl h)
        · rcases List.mem_cons.1 h with rfl | h
          · exact Or.inl rfl
          · exact Or.inr (Or.inr ⟨h, hne⟩)

/-- The content of a map after adding packages with different keys. -/
theorem mem_fold {l : List PackageDetails} (hl : (l.map detailKey).Nodup) {m : SMap PackageDetails} (hn : (m.map (·.1)).Nodup)
    (x : Str × PackageDetails) :
    x ∈ l.foldl addDetail m ↔ (∃ d ∈ l, x = (detailKey d, d)) ∨ (x ∈ m ∧ ∀ d ∈ l, x.1 ≠ detailKey d) := by
  induction l generalizing m with
  | nil => simp
  | cons d l ih =>
    rw [List.map_cons, List.nodup_cons] at hl
    rw [List.foldl_cons, ih hl.2 (m := addDetail m d) (SMap.nodup_set _ _ _ hn)]
    unfold addDetail
    rw [mem_set_iff hn]
    constructor
    · rintro (⟨e, he, rfl⟩ | ⟨rfl | ⟨h, hne⟩, hd⟩)
      · exact Or.inl ⟨e, List.mem_cons_of_mem _ he, rfl⟩
      · exact Or.inl ⟨d, List.mem_cons_self, rfl⟩
      · refine Or.inr ⟨h, fun e he => ?_⟩
        rcases List.mem_cons.1 he with rfl | he
        · exact hne
        · exact hd e he
    · rintro (⟨e, he, rfl⟩ | ⟨h, hd⟩)
      · rcases List.mem_cons.1 he with rfl | he
        · exact Or.inr ⟨Or.inl rfl, fun f hf e' => hl.1 (List.mem_map.2 ⟨f, hf, e'.symm⟩)⟩
        · exact Or.inl ⟨e, he, rfl⟩
      · exact Or.inr ⟨Or.inr ⟨h, hd d List.mem_cons_self⟩, fun e he => hd e (List.mem_cons_of_mem _ he)⟩

/-- What adding entries leaves under a key, when those with that key agree. -/
theorem mem_merge {m : SMap PackageDetails} (hn : (m.map (·.1)).Nodup) (ks : SMap PackageDetails) (x : Str × PackageDetails)
    (hc : ∀ y ∈ ks, ∀ z ∈ ks, y.1 = x.1 → z.1 = x.1 → y = z) :
    x ∈ mergeDetails m ks ↔ x ∈ ks ∨ (x ∈ m ∧ ∀ y ∈ ks, y.1 ≠ x.1) := by
  unfold mergeDetails
  induction ks generalizing m with
  | nil => simp
  | cons a ks ih =>
    rw [List.foldl_cons, ih (SMap.nodup_set _ _ _ hn) fun y hy z hz => hc y (List.mem_cons_of_mem _ hy) z (List.mem_cons_of_mem _ hz),
      mem_set_iff hn]
    constructor
    · rintro (h | ⟨h | ⟨h, hne⟩, hd⟩)
      · exact Or.inl (List.mem_cons_of_mem _ h)
      · exact Or.inl (h ▸ List.mem_cons_self)
      · refine Or.inr ⟨h, fun y hy => ?_⟩
        rcases List.mem_cons.1 hy with rfl | hy
        · exact Ne.symm hne
        · exact hd y hy
    · rintro (h | ⟨h, hd⟩)
      · rcases List.mem_cons.1 h with rfl | h
        · by_cases hk : x ∈ ks
          · exact Or.inl hk
          · refine Or.inr ⟨Or.inl rfl, fun y hy e => hk ?_⟩
            rw [hc x List.mem_cons_self y (List.mem_cons_of_mem _ hy) rfl e]
            exact hy
        · exact Or.inl h
      · exact Or.inr ⟨Or.inr ⟨h, Ne.symm (hd a List.mem_cons_self)⟩, fun y hy => hd y (List.mem_cons_of_mem _ hy)⟩

/-- The last entry wins. -/
theorem merge_last (m ks : SMap PackageDetails) (x : Str × PackageDetails) : x ∈ mergeDetails m (ks ++ [x]) := by
  unfold mergeDetails
  rw [List.foldl_append]
  exact SMap.set_mem _ _ _

theorem merge_nodup {m : SMap PackageDetails} (hn : (m.map (·.1)).Nodup) (ks : SMap PackageDetails) :
    ((mergeDetails m ks).map (·.1)).Nodup := by
  unfold mergeDetails
  induction ks generalizing m with
  | nil => exact hn
  | cons a ks ih => exact ih (SMap.nodup_set _ _ _ hn)

theorem merge_mem (m ks : SMap PackageDetails) (x : Str × PackageDetails) (h : x ∈ mergeDetails m ks) : x ∈ m ∨ x ∈ ks := by
  unfold mergeDetails at h
  induction ks generalizing m with
  | nil => exact Or.inl h
  | cons a ks ih =>
    rcases ih _ h with h | h
    · rcases SMap.mem_set _ _ _ _ h with h | h
      · exact Or.inr (h ▸ List.mem_cons_self)
      · exact Or.inl h
    · exact Or.inr (List.mem_cons_of_mem _ h)

theorem merge_append (m a b : SMap PackageDetails) : mergeDetails m (a ++ b) = mergeDetails (mergeDetails m a) b := by
  unfold mergeDetails
  exact List.foldl_append ..

/-- An order that puts an entry last. -/
def toLast {α : Type} [DecidableEq α] (a : α) (l : List α) : List α := if a ∈ l then l.erase a ++ [a] else l

theorem toLast_perm {α : Type} [DecidableEq α] (a : α) (l : List α) : (toLast a l).Perm l := by
  unfold toLast
  split
  · rename_i h
    exact List.perm_append_comm.trans (List.perm_cons_erase h).symm
  · exact .refl _

theorem toLast_mem {α : Type} [DecidableEq α] {a : α} {l : List α} (h : a ∈ l) : toLast a l = l.erase a ++ [a] := if_pos h

/-- Two packages under one key of a map are the same. -/
theorem one_key {pkgs : List PackageDetails} {m : SMap PackageDetails} (hk : DetailMap.Keyed m) (hn : (m.map (·.1)).Nodup)
    (hp : pkgs.Perm (m.map (·.2))) {p q : PackageDetails} (h1 : p ∈ pkgs) (h2 : q ∈ pkgs) (e : detailKey p = detailKey q) : p = q := by
  refine DetailMap.eq_of_key (key := detailKey) (l := pkgs) ?_ h1 h2 e
  rw [(hp.map _).nodup_iff, DetailMap.keyed_values hk]
  exact hn

/-- Equal maps, whose keys belong to the packages. -/
structure SameMap (m m' : SMap PackageDetails) : Prop where
  perm : m.Perm m'
  nodup : (m.map (·.1)).Nodup
  keyed : DetailMap.Keyed m

theorem SameMap.nodup' {m m' : SMap PackageDetails} (h : SameMap m m') : (m'.map (·.1)).Nodup :=
  ((h.perm.map _).nodup_iff).1 h.nodup

theorem SameMap.nil : SameMap [] [] := ⟨.refl _, by simp, fun _ h => by cases h⟩

theorem SameMap.add {m m' : SMap PackageDetails} (h : SameMap m m') (d : PackageDetails) :
    SameMap (addDetail m d) (addDetail m' d) := by
  refine ⟨?_, SMap.nodup_set _ _ _ h.nodup, DetailMap.keyed_add h.keyed d⟩
  refine DetailMap.nodup_keys_perm (SMap.nodup_set _ _ _ h.nodup) (SMap.nodup_set _ _ _ h.nodup') fun x => ?_
  unfold addDetail
  rw [mem_set_iff h.nodup, mem_set_iff h.nodup', h.perm.mem_iff]

theorem SameMap.fold {m m' : SMap PackageDetails} (h : SameMap m m') {l l' : List PackageDetails} (hp : l.Perm l')
    (hl : (l.map detailKey).Nodup) : SameMap (l.foldl addDetail m) (l'.foldl addDetail m') := by
  refine ⟨?_, DetailMap.fold_nodup _ _ h.nodup, DetailMap.keyed_fold h.keyed l⟩
  refine DetailMap.nodup_keys_perm (DetailMap.fold_nodup _ _ h.nodup) (DetailMap.fold_nodup _ _ h.nodup') fun x => ?_
  rw [mem_fold hl h.nodup, mem_fold (((hp.map _).nodup_iff).1 hl) h.nodup']
  simp only [hp.mem_iff, h.perm.mem_iff]

end MapOrder

namespace Pip
open MapOrder

/-- Two calls end in the same way: with the same files required, and the same packages if there are any. -/
def SameCall : Option ReqResult → Option ReqResult → Prop
  | none, none => True
  | some (none, r), some (none, r') => r = r'
  | some (some ds, r), some (some ds', r') => r = r' ∧ ds.Perm ds' ∧ (ds.map detailKey).Nodup
  | _, _ => False

/-- The same for the loop of a call. -/
def SameLoop : Option (Option (SMap PackageDetails) × List Str) → Option (Option (SMap PackageDetails) × List Str) → Prop
  | none, none => True
  | some (none, r), some (none, r') => r = r'
  | some (some m, r), some (some m', r') => r = r' ∧ SameMap m m'
  | _, _ => False

theorem loop_order {incl incl' : Str → List Str → Option ReqResult} (hi : ∀ a r, SameCall (incl a r) (incl' a r)) (path : Str)
    (ls : List Str) (m m' : SMap PackageDetails) (h : SameMap m m') (req : List Str) :
    SameLoop (reqLoop incl path ls m req) (reqLoop incl' path ls m' req) := by
  induction ls generalizing m m' req with
  | nil => exact ⟨rfl, h⟩
  | cons raw ls ih =>
    unfold reqLoop
    dsimp only
    split
    · split
      · exact ih _ _ h _
      · have hc := hi (Path.join2 (Path.dir path) (cutPrefix (removeComments raw) g!"-r ").1)
          (Path.join2 (Path.dir path) (cutPrefix (removeComments raw) g!"-r ").1 :: req)
        revert hc
        generalize incl _ _ = a
        generalize incl' _ _ = b
        intro hc
        match a, b, hc with
        | none, none, _ => trivial
        | some (none, r), some (none, r'), e => exact e
        | some (some ds, r), some (some ds', r'), ⟨e, hp, hn⟩ =>
          subst e
          exact ih _ _ (h.fold hp hn) _
    · split
      · exact ih _ _ h _
      · exact ih _ _ (h.add _) _

theorem at_order {fs : Str → Option Str} {order order' : Str → List Str → List PackageDetails → List PackageDetails}
    (ho : ∀ p r l, (order p r l).Perm l) (ho' : ∀ p r l, (order' p r l).Perm l) (n : Nat) (path : Str) (req : List Str) :
    SameCall (parseRequirementsAt fs order n path req) (parseRequirementsAt fs order' n path req) := by
  induction n generalizing path req with
  | zero => trivial
  | succ n ih =>
    unfold parseRequirementsAt
    cases fs path with
    | none => rfl
    | some c =>
      dsimp only
      have hl := loop_order ih path (joinLines (Scanner.scan c).1) [] [] SameMap.nil req
      revert hl
      generalize reqLoop _ _ _ _ _ = a
      generalize reqLoop _ _ _ _ _ = b
      intro hl
      match a, b, hl with
      | none, none, _ => trivial
      | some (none, r), some (none, r'), e => exact e
      | some (some m, r), some (some m', r'), ⟨e, hs⟩ =>
        dsimp only
        split
        · exact e
        · refine ⟨e, (ho _ _ _).trans ((hs.perm.map _).trans (ho' _ _ _).symm), ?_⟩
          rw [((ho _ _ _).map _).nodup_iff, DetailMap.keyed_values hs.keyed]
          exact hs.nodup

end Pip
namespace NuGet
open MapOrder

theorem depsLoop_eq (m : SMap PackageDetails) (l : SMap Str) : nugetDepsLoop m l = mergeDetails m (l.map keyed) := by
  induction l generalizing m with
  | nil => rfl
  | cons y l ih =>
    obtain ⟨n, r⟩ := y
    unfold nugetDepsLoop
    rw [ih]
    rfl

theorem loop_append (d : SMap Str → SMap Str) (m : SMap PackageDetails) (a b : SMap (Option (SMap Str))) :
    nugetLoop d m (a ++ b) = nugetLoop d (nugetLoop d m a) b := by
  induction a generalizing m with
  | nil => rfl
  | cons x a ih =>
    obtain ⟨k, deps⟩ := x
    simp only [List.cons_append, nugetLoop]
    exact ih _

/-- The order of iteration can make any entry the last one. -/
theorem loop_last {l : SMap (Option (SMap Str))} {x : Str × Option (SMap Str)} {y : Str × Str} (hx : x ∈ l) (hy : y ∈ x.2.getD []) :
    keyed y ∈ nugetLoop (toLast y) [] (toLast x l) := by
  rw [toLast_mem hx, loop_append]
  obtain ⟨k, deps⟩ := x
  unfold nugetLoop nugetLoop
  have hn : ((nugetDepsLoop [] (toLast y (deps.getD []))).map (·.1)).Nodup := by
    rw [depsLoop_eq]; exact merge_nodup (by simp) _
  have hm : keyed y ∈ nugetDepsLoop [] (toLast y (deps.getD [])) := by
    rw [depsLoop_eq, toLast_mem hy, List.map_append]
    exact merge_last _ _ _
  refine (mem_merge ?_ _ _ ?_).2 (Or.inl hm)
  · exact (loop_adds _ (toLast_perm y) [] _).2.2 (by simp)
  · intro a ha b hb e1 e2
    exact DetailMap.eq_of_key (key := (·.1)) hn ha hb (e1.trans e2.symm)

end NuGet

namespace Pipenv
open MapOrder

/-- The entry of a package, if it has a version. -/
def entry (x : Str × Str) : Option (Str × PackageDetails) :=
  if x.2 = [] then none
  else (dropBytes 2 x.2).map fun v => (x.1 ++ g!"@" ++ v, ⟨x.1, v, [], pipEcosystem, pipEcosystem⟩)

theorem loop_eq {m m' : SMap PackageDetails} {l : SMap Str} (h : pipenvLoop m l = some m') :
    m' = mergeDetails m (l.filterMap entry) := by
  induction l generalizing m with
  | nil => injection h with h; exact h.symm
  | cons x l ih =>
    obtain ⟨n, w⟩ := x
    unfold pipenvLoop at h
    by_cases hw : w = []
    · rw [if_pos hw] at h
      rw [List.filterMap_cons, entry, if_pos hw]
      exact ih h
    · rw [if_neg hw] at h
      obtain ⟨v, hv, h⟩ := Option.bind_eq_some_iff.1 h
      rw [List.filterMap_cons, entry, if_neg hw, hv]
      exact ih h

theorem entry_keyed {x : Str × Str} {y : Str × PackageDetails} (h : entry x = some y) : y.1 = detailKey y.2 := by
  unfold entry at h
  split at h
  · cases h
  · obtain ⟨v, _, rfl⟩ := Option.map_eq_some_iff.1 h
    rfl

end Pipenv
end Osv
