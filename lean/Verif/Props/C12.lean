import Verif.Lemmas.MemDB
/-! # C12 Listing a database yields every advisory once -/
namespace Osv
open Spec

theorem listVulns_spec (inc : Bool) (vs : List OSV) :
    ((listVulns inc vs).map (·.id)).Nodup ∧
    (∀ o ∈ listVulns inc vs, o ∈ vs ∧ (o.withdrawn = none ∨ inc = true)) ∧
    (∀ o ∈ vs, (o.withdrawn = none ∨ inc = true) → o.id ∈ (listVulns inc vs).map (·.id)) := by
  -- invariant: the set of seen ids is exactly the ids of the result
  have key : ∀ (acc : List OSV) (ids : List Str), (∀ x, x ∈ ids ↔ x ∈ acc.map (·.id)) →
      (acc.map (·.id)).Nodup →
      let out := (vs.foldl (fun (acc : List OSV × List Str) v =>
        if acc.2.contains v.id then acc
        else if v.withdrawn.isNone || inc then (acc.1 ++ [v], v.id :: acc.2)
        else acc) (acc, ids)).1
      (out.map (·.id)).Nodup ∧ (∀ o ∈ out, o ∈ acc ∨ (o ∈ vs ∧ (o.withdrawn = none ∨ inc = true))) ∧
      (∀ o ∈ acc, o ∈ out) ∧
      (∀ o ∈ vs, (o.withdrawn = none ∨ inc = true) → o.id ∈ out.map (·.id)) := by
    induction vs with
    | nil => intro acc ids _ hn; exact ⟨hn, fun o ho => .inl ho, fun o ho => ho, by simp⟩
    | cons v vs ih =>
      intro acc ids hids hn
      simp only [List.foldl_cons]
      by_cases hv : v.id ∈ ids
      · rw [if_pos (by simpa using hv)]
        obtain ⟨h1, h2, h3, h4⟩ := ih acc ids hids hn
        refine ⟨h1, ?_, h3, ?_⟩
        · intro o ho
          rcases h2 o ho with h | ⟨h, h'⟩
          · exact .inl h
          · exact .inr ⟨List.mem_cons_of_mem _ h, h'⟩
        · intro o ho hw
          rcases List.mem_cons.mp ho with rfl | ho
          · rw [hids] at hv
            obtain ⟨x, hx, e⟩ := List.mem_map.mp hv
            exact List.mem_map.mpr ⟨x, h3 x hx, e⟩
          · exact h4 o ho hw
      · rw [if_neg (by simpa using hv)]
        by_cases hw : v.withdrawn.isNone || inc
        · rw [if_pos hw]
          have hw' : v.withdrawn = none ∨ inc = true := by simpa using hw
          obtain ⟨h1, h2, h3, h4⟩ := ih (acc ++ [v]) (v.id :: ids)
            (by intro x; simp only [List.mem_cons, hids, List.map_append, List.mem_append, List.map_cons,
                  List.map_nil, List.not_mem_nil, or_false]; exact or_comm)
            (by
              rw [List.map_append, List.nodup_append]
              refine ⟨hn, by simp, ?_⟩
              intro a ha b hb e
              simp at hb; subst hb; subst e
              exact hv ((hids _).mpr ha))
          refine ⟨h1, ?_, fun o ho => h3 o (by simp [ho]), ?_⟩
          · intro o ho
            rcases h2 o ho with h | ⟨h, h'⟩
            · rcases List.mem_append.mp h with h | h
              · exact .inl h
              · simp at h; subst h; exact .inr ⟨by simp, hw'⟩
            · exact .inr ⟨List.mem_cons_of_mem _ h, h'⟩
          · intro o ho hw2
            rcases List.mem_cons.mp ho with rfl | ho
            · exact List.mem_map.mpr ⟨o, h3 o (by simp), rfl⟩
            · exact h4 o ho hw2
        · rw [if_neg hw]
          obtain ⟨h1, h2, h3, h4⟩ := ih acc ids hids hn
          refine ⟨h1, ?_, h3, ?_⟩
          · intro o ho
            rcases h2 o ho with h | ⟨h, h'⟩
            · exact .inl h
            · exact .inr ⟨List.mem_cons_of_mem _ h, h'⟩
          · intro o ho hw2
            rcases List.mem_cons.mp ho with rfl | ho
            · exact absurd (by simpa using hw2) hw
            · exact h4 o ho hw2
  obtain ⟨h1, h2, -, h4⟩ := key [] [] (by simp) (by simp)
  refine ⟨h1, ?_, h4⟩
  intro o ho
  rcases h2 o ho with h | h
  · simp at h
  · exact h

/-- The keys of the index are distinct (it is a Go map). -/
theorem loadAll_keys_nodup (os : List OSV) (names : List Str) :
    ((MemDB.loadAll os names).vulnerabilities.map (·.1)).Nodup := by
  unfold MemDB.loadAll
  have key : ∀ db : MemDB, (db.vulnerabilities.map (·.1)).Nodup →
      ((os.foldl (fun db o => db.addVulnerability o names) db).vulnerabilities.map (·.1)).Nodup := by
    induction os with
    | nil => intro db h; exact h
    | cons o os ih =>
      intro db h
      apply ih
      unfold MemDB.addVulnerability
      dsimp only
      split
      · exact h
      · simp only
        generalize db.vulnerabilities = m at h
        generalize o.affected = as
        induction as generalizing m with
        | nil => exact h
        | cons a as iha => exact iha _ (SMap.nodup_set _ _ _ h)
  exact key {} (by simp)

/-- Membership in the values of a map with distinct keys. -/
theorem mem_values_iff {m : SMap (List OSV)} (hn : (m.map (·.1)).Nodup) (o : OSV) :
    o ∈ m.flatMap (·.2) ↔ ∃ k, o ∈ (m.get? k).getD [] := by
  induction m with
  | nil => simp [SMap.get?]
  | cons b m ih =>
    obtain ⟨k', v'⟩ := b
    simp only [List.map_cons, List.nodup_cons] at hn
    rw [List.flatMap_cons, List.mem_append, ih hn.2]
    constructor
    · rintro (h | ⟨k, h⟩)
      · exact ⟨k', by simpa [SMap.get?, List.lookup] using h⟩
      · refine ⟨k, ?_⟩
        have hk : k ≠ k' := by
          rintro rfl
          apply hn.1
          cases e : SMap.get? m k with
          | none => simp [e] at h
          | some x =>
            have := List.lookup_eq_some_iff.mp e
            obtain ⟨l1, l2, e', -⟩ := this
            simp [e']
        have : (k == k') = false := by simpa using hk
        simpa [SMap.get?, List.lookup, this] using h
    · rintro ⟨k, h⟩
      by_cases hk : k = k'
      · subst hk; left; simpa [SMap.get?, List.lookup] using h
      · right
        refine ⟨k, ?_⟩
        have : (k == k') = false := by simpa using hk
        simpa [SMap.get?, List.lookup, this] using h

/-- For every iteration order of the index (any permutation of its bindings): the listed IDs are pairwise
different, every listed advisory was loaded (and is not withdrawn unless asked for), and the listed IDs are
exactly those of the loaded advisories with an affected package that pass the name filter (and have a
non-withdrawn record unless withdrawn ones are asked for). -/
theorem C12_listing (os : List OSV) (names : List Str) (inc : Bool) (order : SMap (List OSV))
    (hp : order.Perm (MemDB.loadAll os names).vulnerabilities) :
    let out := MemDB.list ⟨order, os.length⟩ inc
    (out.map (·.id)).Nodup ∧
    (∀ o ∈ out, o ∈ os ∧ (o.withdrawn = none ∨ inc = true)) ∧
    (∀ id, id ∈ out.map (·.id) ↔ ∃ o ∈ os, o.id = id ∧ o.affected ≠ [] ∧
      (names = [] ∨ mightAffectPackages o names = true) ∧ (o.withdrawn = none ∨ inc = true)) := by
  intro out
  have hmem : ∀ o, o ∈ order.flatMap (·.2) ↔
      o ∈ os ∧ o.affected ≠ [] ∧ (names = [] ∨ mightAffectPackages o names = true) := by
    intro o
    have : o ∈ order.flatMap (·.2) ↔ o ∈ (MemDB.loadAll os names).vulnerabilities.flatMap (·.2) :=
      (hp.flatMap_right _).mem_iff
    rw [this, mem_values_iff (loadAll_keys_nodup os names)]
    simp only [get?_loadAll, mem_filed]
    constructor
    · rintro ⟨k, h1, h2, a, ha, -⟩
      exact ⟨h1, fun e => by rw [e] at ha; simp at ha, h2⟩
    · rintro ⟨h1, h2, h3⟩
      cases hA : o.affected with
      | nil => exact absurd hA h2
      | cons a as => exact ⟨a.key, h1, h3, a, by simp, rfl⟩
  obtain ⟨h1, h2, h3⟩ := listVulns_spec inc (order.flatMap (·.2))
  refine ⟨h1, ?_, ?_⟩
  · intro o ho
    obtain ⟨h4, h5⟩ := h2 o ho
    exact ⟨((hmem o).mp h4).1, h5⟩
  · intro id
    constructor
    · intro h
      obtain ⟨o, ho, rfl⟩ := List.mem_map.mp h
      obtain ⟨h4, h5⟩ := h2 o ho
      obtain ⟨h6, h7, h8⟩ := (hmem o).mp h4
      exact ⟨o, h6, rfl, h7, h8, h5⟩
    · rintro ⟨o, ho, rfl, h7, h8, h5⟩
      exact h3 o ((hmem o).mpr ⟨ho, h7, h8⟩) h5

/-- The set of listed IDs does not depend on the iteration order. -/
theorem C12_order_independent (os : List OSV) (names : List Str) (inc : Bool)
    (m m' : SMap (List OSV)) (hm : m.Perm (MemDB.loadAll os names).vulnerabilities)
    (hm' : m'.Perm (MemDB.loadAll os names).vulnerabilities) :
    ((MemDB.list ⟨m, os.length⟩ inc).map (·.id)).Perm ((MemDB.list ⟨m', os.length⟩ inc).map (·.id)) := by
  obtain ⟨h1, -, h3⟩ := C12_listing os names inc m hm
  obtain ⟨h1', -, h3'⟩ := C12_listing os names inc m' hm'
  rw [List.perm_ext_iff_of_nodup h1 h1']
  intro id
  rw [h3, h3']

example : let o : OSV := { id := g!"A", affected := [{ package := ⟨g!"foo", g!"npm"⟩ }, { package := ⟨g!"bar", g!"npm"⟩ }] }
    ((MemDB.loadAll [o] []).list false).map (·.id) = [g!"A"] ∧ (MemDB.loadAll [o] []).vulnerabilities.length = 2 := by
  decide

end Osv
