import Verif.Lemmas.EndToEnd
/-! Messages of checks with a local database. -/
namespace Osv.Warnings
open Spec World

variable {S : Sorter} {sem : Sem} {R : AffectsRange → AffectsRange → Prop}

theorem unbounded_iff (a : Affected) (pkg : PackageDetails) :
    a.unbounded pkg = true ↔ EcoMatch a.package.ecosystem pkg.ecosystem ∧ entryName a = pkg.name ∧ a.ranges = [] ∧ a.versions = [] := by
  unfold Affected.unbounded
  rw [show entryName a = a.package.normalizedName from (normalizedName_eq _).symm, ← areEcosystemsEqual_iff]
  simp [and_assoc]

theorem entriesDiags_sound (pkg : PackageDetails) (id : Str) (as : List Affected) (m : Str) (h : m ∈ entriesDiags S sem pkg id as) :
    m = id ∧ ∃ a ∈ as, a.unbounded pkg = true := by
  induction as with
  | nil => cases h
  | cons a as ih =>
    unfold entriesDiags at h
    rcases List.mem_append.1 h with h | h
    · split at h
      · exact ⟨by simpa using h, a, by simp, ‹_›⟩
      · cases h
    · split at h
      · cases h
      · obtain ⟨e, b, hb, hu⟩ := ih h
        exact ⟨e, b, by simp [hb], hu⟩

theorem entriesDiags_complete (pkg : PackageDetails) (id : Str) (as : List Affected) (a : Affected) (ha : a ∈ as)
    (hu : a.unbounded pkg = true) : id ∈ entriesDiags S sem pkg id as ∨ (matchEntriesM S sem pkg as).1 = true := by
  induction as with
  | nil => cases ha
  | cons b as ih =>
    unfold entriesDiags matchEntriesM
    dsimp only
    by_cases hm : (b.matchesPkgM S sem pkg).1 = true
    · right; simp [hm]
    · rcases List.mem_cons.1 ha with rfl | ha
      · left; simp [hu]
      · rcases ih ha with h | h
        · left; rw [if_neg hm]; exact List.mem_append_right _ h
        · right; rw [if_neg hm]; exact h

/-- The relation of original and current advisory keeps what the message is about. -/
theorem unbounded_sim {as as' : List Affected} (h : ListRel (AffSim R) as as') (pkg : PackageDetails) :
    (∃ a ∈ as', a.unbounded pkg = true) ↔ ∃ a ∈ as, a.unbounded pkg = true := by
  induction h with
  | nil => simp
  | @cons a a' as as' ha has ih =>
    have : a'.unbounded pkg = a.unbounded pkg := by
      unfold Affected.unbounded
      rw [ha.1, ha.2.1, ha.2.2.length_eq]
    simp only [List.mem_cons, exists_eq_or_imp, this, ih]

theorem collectDiags_sound {H : Nat → OSV} (pkg : PackageDetails) (is : List Nat) (st : (Nat → OSV) × List Nat)
    (h : HeapSim (fun r r' => r'.type = r.type ∧ r.events.Perm r'.events) H st.1) (m : Str) (hm : m ∈ collectDiags S sem pkg st is) :
    ∃ i ∈ is, m = (H i).id ∧ (H i).withdrawn = none ∧ ∃ a ∈ (H i).affected, a.unbounded pkg = true := by
  induction is generalizing st with
  | nil => cases hm
  | cons i is ih =>
    unfold collectDiags at hm
    rcases List.mem_append.1 hm with hm | hm
    · split at hm
      · rename_i hw
        obtain ⟨h1, -, -, h4, -, h6⟩ := h i
        obtain ⟨e, hu⟩ := entriesDiags_sound _ _ _ _ hm
        refine ⟨i, by simp, e.trans h1, ?_, (unbounded_sim h6 pkg).1 hu⟩
        rw [← h4]
        simpa using hw
      · cases hm
    · obtain ⟨j, hj, r⟩ := ih _ (collectStepM_sim (permSim S sem (fun _ => True)) h (fun _ _ _ _ _ _ => trivial) pkg trivial st.2 i) hm
      exact ⟨j, by simp [hj], r⟩

theorem collectDiags_complete {Good : AffectsRange → Prop} {H : Nat → OSV} (hg : ∀ i, GoodOSV Good (H i)) (pkg : PackageDetails)
    (heq : ∀ r r' : AffectsRange, Good r → (r'.type = r.type ∧ r.events.Perm r'.events) →
      r'.containsVersion S sem pkg = r.containsVersion S sem pkg)
    (is : List Nat) (st : (Nat → OSV) × List Nat)
    (h : HeapSim (fun r r' => r'.type = r.type ∧ r.events.Perm r'.events) H st.1) (i : Nat) (hi : i ∈ is)
    (hw : (H i).withdrawn = none) (hu : ∃ a ∈ (H i).affected, a.unbounded pkg = true) :
    (H i).id ∈ collectDiags S sem pkg st is ∨ (H i).isAffected S sem pkg = true := by
  induction is generalizing st with
  | nil => cases hi
  | cons j is ih =>
    unfold collectDiags
    rcases List.mem_cons.1 hi with rfl | hi
    · obtain ⟨h1, -, -, h4, -, h6⟩ := h i
      obtain ⟨a, ha, hu'⟩ := (unbounded_sim h6 pkg).2 hu
      rcases entriesDiags_complete (S := S) (sem := sem) pkg (st.1 i).id _ a ha hu' with hd | hd
      · left
        rw [← h1, h4, hw]
        exact List.mem_append_left _ hd
      · right
        rw [matchEntriesM_eq (permSim S sem Good) h6 (hg i) pkg heq] at hd
        exact hd
    · rcases ih _ (collectStepM_sim (permSim S sem Good) h hg pkg trivial st.2 j) hi with hd | hd
      · exact .inl (List.mem_append_right _ hd)
      · exact .inr hd

theorem mem_checkDiags (db : HeapDB) (ps : List PackageDetails) (m : Str) :
    m ∈ db.checkDiags S sem ps ↔ ∃ k pkg, ps[k]? = some pkg ∧ m ∈ (db.check S sem (ps.take k)).2.affectingDiags S sem pkg := by
  induction ps generalizing db with
  | nil => simp [HeapDB.checkDiags]
  | cons p ps ih =>
    unfold HeapDB.checkDiags
    rw [List.mem_append, ih]
    constructor
    · rintro (h | ⟨k, pkg, hk, h⟩)
      · exact ⟨0, p, rfl, h⟩
      · exact ⟨k + 1, pkg, hk, h⟩
    · rintro ⟨k, pkg, hk, h⟩
      cases k with
      | zero =>
        cases hk
        exact .inl h
      | succ k => exact .inr ⟨k, pkg, hk, h⟩

/-- The position of an advisory under a key. -/
theorem index_pos (os : List OSV) (names : List Str) (k : Str) (is : List Nat) (h : (HeapDB.load os names).index.get? k = some is)
    (o : OSV) : o ∈ filed names k os ↔ ∃ i ∈ is, os.getD i default = o := by
  rw [← load_index_get?, h, Option.getD_some, List.mem_map]

theorem checkDiags_sound (os : List OSV) (names : List Str) (history pkgs : List PackageDetails) (m : Str)
    (h : m ∈ ((HeapDB.load os names).check S sem history).2.checkDiags S sem pkgs) :
    ∃ pkg ∈ pkgs, ∃ o ∈ os, o.id = m ∧ o.withdrawn = none ∧ Unbounded o pkg := by
  obtain ⟨k, pkg, hk, h⟩ := (mem_checkDiags _ _ _).1 h
  have hs := permSim S sem (fun _ => True)
  have hg0 : ∀ i, GoodOSV (fun _ => True) ((HeapDB.load os names).heap i) := fun _ _ _ _ _ _ => trivial
  obtain ⟨h1, h2⟩ := check_sim hs hg0 (HeapDB.load os names) (heapSim_refl hs.refl _) (history ++ pkgs.take k) (fun _ _ => trivial)
  rw [check_append] at h1 h2
  unfold HeapDB.affectingDiags at h
  rw [h2] at h
  cases hi : (HeapDB.load os names).index.get? pkg.key with
  | none => rw [hi] at h; cases h
  | some is =>
    rw [hi] at h
    obtain ⟨i, him, e1, e2, a, ha, hu⟩ := collectDiags_sound pkg is _ h1 m h
    have hmem := (index_pos os names _ is hi (os.getD i default)).2 ⟨i, him, rfl⟩
    obtain ⟨ho, -, -⟩ := mem_filed.1 hmem
    exact ⟨pkg, List.mem_of_getElem? hk, _, ho, e1.symm, e2, a, ha, (unbounded_iff a pkg).1 hu⟩

theorem checkDiags_complete (os : List OSV) (names : List Str) (history pkgs : List PackageDetails) (pkg : PackageDetails)
    (hpkg : pkg ∈ pkgs) (hc : CmpLaws (sem pkg.compareAs)) (hwf : ∀ o ∈ os, WellFormedOSV (sem pkg.compareAs) o)
    (heco : ':' ∉ pkg.ecosystem) (hn : pkg.name ∈ names) (o : OSV) (ho : o ∈ os) (hwd : o.withdrawn = none) (hu : Unbounded o pkg) :
    o.id ∈ ((HeapDB.load os names).check S sem history).2.checkDiags S sem pkgs ∨ Affects (sem pkg.compareAs) o pkg := by
  obtain ⟨k, hk⟩ := List.getElem?_of_mem hpkg
  have hs := permSim S sem (fun r => WellFormed (sem pkg.compareAs) r.events)
  have hg0 : ∀ i, GoodOSV (fun r => WellFormed (sem pkg.compareAs) r.events) ((HeapDB.load os names).heap i) := by
    intro i
    show GoodOSV _ (os.getD i default)
    rw [List.getD_eq_getElem?_getD]
    cases hx : os[i]? with
    | none => intro a ha; simp [default] at ha
    | some o => exact wellFormedRanges_of (hwf o (List.mem_of_getElem? hx))
  obtain ⟨h1, h2⟩ := check_sim hs hg0 (HeapDB.load os names) (heapSim_refl hs.refl _) (history ++ pkgs.take k) (fun _ _ => trivial)
  rw [check_append] at h1 h2
  obtain ⟨a, ha, he, hname, hr, hv⟩ := hu
  have hname' : a.package.normalizedName = pkg.name := (normalizedName_eq _).trans hname
  have hfiled : o ∈ filed names pkg.key os := by
    rw [mem_filed]
    refine ⟨ho, .inr ?_, a, ha, key_of_match a pkg heco he hname'⟩
    unfold mightAffectPackages
    rw [List.any_eq_true]
    exact ⟨a, ha, by rw [hname']; simpa using hn⟩
  have hidx := load_index_get? os names pkg.key
  cases hi : (HeapDB.load os names).index.get? pkg.key with
  | none => rw [hi] at hidx; rw [← hidx] at hfiled; cases hfiled
  | some is =>
    obtain ⟨i, him, hio⟩ := (index_pos os names _ is hi o).1 hfiled
    have := collectDiags_complete (S := S) (sem := sem) hg0 pkg (fun r r' hgood hr => by
        have := C01_event_order_irrelevant S S sem r.type r'.events r.events hr.2.symm pkg hc (hgood.perm hc hr.2)
        rw [← hr.1] at this
        rw [show r' = ⟨r'.type, r'.events⟩ from rfl, this, hr.1]) is (_, []) h1 i him
      (by show (os.getD i default).withdrawn = none; rw [hio]; exact hwd)
      ⟨a, by show a ∈ (os.getD i default).affected; rw [hio]; exact ha, (unbounded_iff a pkg).2 ⟨he, hname, hr, hv⟩⟩
    rw [show (HeapDB.load os names).heap i = o from hio] at this
    rcases this with h | h
    · left
      rw [mem_checkDiags]
      refine ⟨k, pkg, hk, ?_⟩
      unfold HeapDB.affectingDiags
      rw [h2, hi]
      exact h
    · right
      exact (isAffected_iff_affects S sem o pkg hc (hwf o ho)).1 h

theorem worldLoad_checkDiags (S : Sorter) (W : World) (c : DBConfig) (offline : Bool) (batchSize : Int) (names : List Str) (db : DB)
    (h : (worldLoad S W c offline batchSize names).1 = some db) (ht : c.type ≠ g!"api") (n : Nat) (pkgs : List PackageDetails) :
    (db.check n pkgs).2 = !(((HeapDB.load (advisoriesOf W.load c offline) names).check S W.sem (W.history c n)).2.checkDiags S W.sem
      pkgs).isEmpty := by
  unfold worldLoad at h
  split at h
  · rename_i ld hld
    rcases loadDB_advisories W.load c offline batchSize names ld hld with ⟨u, hk⟩ | hk | ⟨ha, -⟩
    · rw [hk] at h; cases h; rfl
    · rw [hk] at h; cases h; rfl
    · exact absurd ha ht
  · cases h

end Osv.Warnings
