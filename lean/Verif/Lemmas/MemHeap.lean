import Verif.Model.MemHeap
import Verif.Lemmas.MemDB
import Verif.Lemmas.Version
/-! Simulation between the mutable database and the pure one. -/
namespace Osv
open Spec

/-- Element-wise relation of two lists. -/
inductive ListRel {α β : Type} (R : α → β → Prop) : List α → List β → Prop
  | nil : ListRel R [] []
  | cons {a b as bs} : R a b → ListRel R as bs → ListRel R (a :: as) (b :: bs)

theorem ListRel.refl {α : Type} {R : α → α → Prop} (l : List α) (h : ∀ a ∈ l, R a a) : ListRel R l l := by
  induction l with
  | nil => exact .nil
  | cons a l ih => exact .cons (h a (by simp)) (ih fun x hx => h x (by simp [hx]))

theorem ListRel.length_eq {α β : Type} {R : α → β → Prop} {l : List α} {l' : List β} (h : ListRel R l l') :
    l.length = l'.length := by
  induction h with
  | nil => rfl
  | cons _ _ ih => simp [ih]

/-- A relation between an original range and its current content that checks preserve and that does not
change answers. -/
structure RangeSim (S : Sorter) (sem : Sem) (Good : AffectsRange → Prop) (P : PackageDetails → Prop)
    (R : AffectsRange → AffectsRange → Prop) : Prop where
  refl : ∀ r, R r r
  type_eq : ∀ r r', R r r' → r'.type = r.type
  step : ∀ r r' p, Good r → P p → R r r' → R r (r'.containsVersionM S sem p).2

/-- Original and current entry. -/
def AffSim (R : AffectsRange → AffectsRange → Prop) (a a' : Affected) : Prop :=
  a'.package = a.package ∧ a'.versions = a.versions ∧ ListRel R a.ranges a'.ranges

/-- Original and current advisory. -/
def OsvSim (R : AffectsRange → AffectsRange → Prop) (o o' : OSV) : Prop :=
  o'.id = o.id ∧ o'.aliases = o.aliases ∧ o'.summary = o.summary ∧ o'.withdrawn = o.withdrawn ∧
  o'.details = o.details ∧ ListRel (AffSim R) o.affected o'.affected

variable {S : Sorter} {sem : Sem} {Good : AffectsRange → Prop} {P : PackageDetails → Prop}
  {R : AffectsRange → AffectsRange → Prop}

theorem containsVersionM_fst (r : AffectsRange) (p : PackageDetails) :
    (r.containsVersionM S sem p).1 = r.containsVersion S sem p := by
  unfold AffectsRange.containsVersionM AffectsRange.containsVersion
  split
  · rfl
  · split <;> rfl

theorem RangeSim.versioned (hs : RangeSim S sem Good P R) {r r' : AffectsRange} (h : R r r') :
    r'.versioned = r.versioned := by unfold AffectsRange.versioned; rw [hs.type_eq r r' h]

theorem affectsVersionM_sim (hs : RangeSim S sem Good P R) {rs rs' : List AffectsRange}
    (h : ListRel R rs rs') (hg : ∀ r ∈ rs, r.versioned = true → Good r) (p : PackageDetails) (hp : P p) :
    ListRel R rs (affectsVersionM S sem p rs').2 := by
  induction h with
  | nil => exact .nil
  | @cons r r' rs rs' hr hrs ih =>
    unfold affectsVersionM
    rw [hs.versioned hr]
    cases hv : r.versioned with
    | false => exact .cons hr hrs
    | true =>
      simp only [Bool.not_true, Bool.false_eq_true, if_false]
      have h1 := hs.step r r' p (hg r (by simp) hv) hp hr
      split
      · exact .cons h1 hrs
      · exact .cons h1 (ih fun x hx => hg x (by simp [hx]))

theorem affectsVersionM_eq (hs : RangeSim S sem Good P R) {rs rs' : List AffectsRange}
    (h : ListRel R rs rs') (hg : ∀ r ∈ rs, r.versioned = true → Good r) (p : PackageDetails)
    (heq : ∀ r r', Good r → R r r' → r'.containsVersion S sem p = r.containsVersion S sem p) :
    (affectsVersionM S sem p rs').1 = affectsVersion S sem p rs := by
  induction h with
  | nil => rfl
  | @cons r r' rs rs' hr hrs ih =>
    unfold affectsVersionM affectsVersion
    rw [hs.versioned hr]
    cases hv : r.versioned with
    | false => rfl
    | true =>
      simp only [Bool.not_true, Bool.false_eq_true, if_false]
      rw [containsVersionM_fst, heq r r' (hg r (by simp) hv) hr]
      split
      · rfl
      · exact ih fun x hx => hg x (by simp [hx])

/-- Every versioned range of the entry is good. -/
def GoodEntry (Good : AffectsRange → Prop) (a : Affected) : Prop :=
  ∀ r ∈ a.ranges, r.versioned = true → Good r

theorem matchesPkgM_sim (hs : RangeSim S sem Good P R) {a a' : Affected} (h : AffSim R a a')
    (hg : GoodEntry Good a) (p : PackageDetails) (hp : P p) :
    AffSim R a (a'.matchesPkgM S sem p).2 := by
  unfold Affected.matchesPkgM
  split
  · split
    · exact h
    · split
      · exact h
      · exact ⟨h.1, h.2.1, affectsVersionM_sim hs h.2.2 hg p hp⟩
  · exact h

theorem matchesPkgM_eq (hs : RangeSim S sem Good P R) {a a' : Affected} (h : AffSim R a a')
    (hg : GoodEntry Good a) (p : PackageDetails)
    (heq : ∀ r r', Good r → R r r' → r'.containsVersion S sem p = r.containsVersion S sem p) :
    (a'.matchesPkgM S sem p).1 = a.matchesPkg S sem p := by
  unfold Affected.matchesPkgM Affected.matchesPkg
  rw [h.1, h.2.1, ← h.2.2.length_eq]
  cases h1 : (areEcosystemsEqual a.package.ecosystem p.ecosystem && decide (a.package.normalizedName = p.name))
  · simp
  · simp only [if_true]
    split
    · rename_i h2; simp [h2.1, h2.2]
    · rename_i h2
      have h3 : (decide (a.ranges.length = 0) && decide (a.versions.length = 0)) = false := by
        rw [← Bool.not_eq_true]; simpa using h2
      rw [h3]
      split
      · rename_i h4; simp only [h4]; simp
      · rename_i h4
        have h4' : a.versions.contains p.version = false := by simpa using h4
        simp only [affectsVersionM_eq hs h.2.2 hg p heq, h4']
        simp

theorem matchEntriesM_sim (hs : RangeSim S sem Good P R) {as as' : List Affected}
    (h : ListRel (AffSim R) as as') (hg : ∀ a ∈ as, GoodEntry Good a) (p : PackageDetails) (hp : P p) :
    ListRel (AffSim R) as (matchEntriesM S sem p as').2 := by
  induction h with
  | nil => exact .nil
  | @cons a a' as as' ha has ih =>
    unfold matchEntriesM
    have h1 := matchesPkgM_sim hs ha (hg a (by simp)) p hp
    dsimp only
    split
    · exact .cons h1 has
    · exact .cons h1 (ih fun x hx => hg x (by simp [hx]))

theorem matchEntriesM_eq (hs : RangeSim S sem Good P R) {as as' : List Affected}
    (h : ListRel (AffSim R) as as') (hg : ∀ a ∈ as, GoodEntry Good a) (p : PackageDetails)
    (heq : ∀ r r', Good r → R r r' → r'.containsVersion S sem p = r.containsVersion S sem p) :
    (matchEntriesM S sem p as').1 = as.any fun a => a.matchesPkg S sem p := by
  induction h with
  | nil => rfl
  | @cons a a' as as' ha has ih =>
    unfold matchEntriesM
    dsimp only
    rw [matchesPkgM_eq hs ha (hg a (by simp)) p heq, List.any_cons]
    split
    · rename_i h1; simp [h1]
    · rename_i h1
      simp only [h1, Bool.false_or]
      exact ih fun x hx => hg x (by simp [hx])

/-- Original and current heap. -/
def HeapSim (R : AffectsRange → AffectsRange → Prop) (H H' : Nat → OSV) : Prop := ∀ i, OsvSim R (H i) (H' i)

theorem includesVuln_sim {H H' : Nat → OSV} (h : HeapSim R H H') (acc : List Nat) (i : Nat) :
    includesVuln (acc.map H') (H' i) = includesVuln (acc.map H) (H i) := by
  unfold includesVuln
  rw [List.any_map, List.any_map]
  congr 1
  funext j
  obtain ⟨h1, h2, -⟩ := h j
  obtain ⟨h3, h4, -⟩ := h i
  simp [OSV.isAliasOf, h1, h2, h3, h4]

/-- Every versioned range of the advisory is good. -/
def GoodOSV (Good : AffectsRange → Prop) (o : OSV) : Prop := ∀ a ∈ o.affected, GoodEntry Good a

theorem collectStepM_sim (hs : RangeSim S sem Good P R) {H H' : Nat → OSV} (h : HeapSim R H H')
    (hg : ∀ i, GoodOSV Good (H i)) (p : PackageDetails) (hp : P p) (acc : List Nat) (i : Nat) :
    HeapSim R H (collectStepM S sem p (H', acc) i).1 := by
  unfold collectStepM
  dsimp only
  have key : HeapSim R H (fun j => if j = i then
      { H' i with affected := (matchEntriesM S sem p (H' i).affected).2 } else H' j) := by
    intro j
    dsimp only
    split
    · rename_i hj
      subst hj
      obtain ⟨h1, h2, h3, h4, h5, h6⟩ := h j
      exact ⟨h1, h2, h3, h4, h5, matchEntriesM_sim hs h6 (hg j) p hp⟩
    · exact h j
  split
  · split
    · exact key
    · exact key
  · exact h

theorem foldl_collectStepM_sim (hs : RangeSim S sem Good P R) {H : Nat → OSV}
    (hg : ∀ i, GoodOSV Good (H i)) (p : PackageDetails) (hp : P p) (is : List Nat)
    (st : (Nat → OSV) × List Nat) (h : HeapSim R H st.1) :
    HeapSim R H (is.foldl (collectStepM S sem p) st).1 := by
  induction is generalizing st with
  | nil => exact h
  | cons i is ih => exact ih _ (collectStepM_sim hs h hg p hp st.2 i)

/-- The pure loop on load positions. -/
def collectPos (S : Sorter) (sem : Sem) (p : PackageDetails) (H : Nat → OSV) (acc : List Nat) (i : Nat) : List Nat :=
  if (H i).withdrawn.isNone && (H i).isAffected S sem p && !includesVuln (acc.map H) (H i) then acc ++ [i] else acc

theorem foldl_collectStepM_eq (hs : RangeSim S sem Good P R) {H : Nat → OSV}
    (hg : ∀ i, GoodOSV Good (H i)) (p : PackageDetails) (hp : P p)
    (heq : ∀ r r', Good r → R r r' → r'.containsVersion S sem p = r.containsVersion S sem p)
    (is : List Nat) (st : (Nat → OSV) × List Nat) (h : HeapSim R H st.1) :
    (is.foldl (collectStepM S sem p) st).2 = is.foldl (collectPos S sem p H) st.2 := by
  induction is generalizing st with
  | nil => rfl
  | cons i is ih =>
    obtain ⟨H', acc⟩ := st
    rw [List.foldl_cons, List.foldl_cons, ih _ (collectStepM_sim hs h hg p hp acc i)]
    congr 1
    unfold collectStepM collectPos
    obtain ⟨-, -, -, hw, -, ha⟩ := h i
    dsimp only
    rw [hw, includesVuln_sim h, matchEntriesM_eq hs ha (hg i) p heq]
    unfold OSV.isAffected
    cases (H i).withdrawn.isNone
    · simp
    · simp only [if_true, Bool.true_and]
      split <;> rfl

theorem foldl_collectPos_map (p : PackageDetails) (H : Nat → OSV) (is acc : List Nat) :
    (is.foldl (collectPos S sem p H) acc).map H =
      (is.map H).foldl (fun acc v =>
        if v.withdrawn.isNone && v.isAffected S sem p && !includesVuln acc v then acc ++ [v] else acc)
        (acc.map H) := by
  induction is generalizing acc with
  | nil => rfl
  | cons i is ih =>
    rw [List.foldl_cons, ih, List.map_cons, List.foldl_cons]
    congr 1
    unfold collectPos
    split <;> simp

/-- The index of load positions holds, key by key, the positions of the filed advisories. -/
theorem addIndex_get? (m : SMap (List Nat)) (names : List Str) (o : OSV) (i : Nat) (k : Str) :
    ((addIndex m names o i).get? k).getD [] = (m.get? k).getD [] ++
      (if decide (names.length ≠ 0) && !mightAffectPackages o names then []
       else (o.affected.filter fun a => a.key = k).map fun _ => i) := by
  unfold addIndex
  split
  · simp
  · generalize o.affected = as
    induction as generalizing m with
    | nil => simp
    | cons a as ih =>
      rw [List.foldl_cons, ih]
      by_cases h : a.key = k
      · subst h; rw [SMap.get?_set_self]; simp
      · rw [SMap.get?_set_ne _ _ _ _ (Ne.symm h)]; simp [h]

theorem load_index_get? (os : List OSV) (names : List Str) (k : Str) :
    (((HeapDB.load os names).index.get? k).getD []).map (fun i => os.getD i default) = filed names k os := by
  have key : ∀ (pre os' : List OSV) (m : SMap (List Nat)),
      pre ++ os' = os →
      (((os'.zipIdx pre.length).foldl (fun m oi => addIndex m names oi.1 oi.2) m).get? k |>.getD []).map
        (fun i => os.getD i default) =
      ((m.get? k).getD []).map (fun i => os.getD i default) ++ filed names k os' := by
    intro pre os'
    induction os' generalizing pre with
    | nil => intro m _; simp [filed]
    | cons o os' ih =>
      intro m he
      rw [List.zipIdx_cons, List.foldl_cons]
      have := ih (pre ++ [o]) (addIndex m names o pre.length) (by simpa using he)
      rw [List.length_append, List.length_singleton] at this
      rw [this, addIndex_get?, List.map_append, List.append_assoc]
      congr 1
      have hf : filed names k (o :: os') =
          (if decide (names.length ≠ 0) && !mightAffectPackages o names then []
            else (o.affected.filter fun a => a.key = k).map fun _ => o) ++ filed names k os' := rfl
      rw [hf]
      congr 1
      split
      · rfl
      · rw [List.map_map]
        apply List.map_congr_left
        intro a _
        have : os[pre.length]? = some o := by rw [← he]; simp
        simp [this]
  have := key [] os [] rfl
  simpa [HeapDB.load, SMap.get?] using this

/-- Any history of checks keeps the current heap related to the original one. -/
theorem check_sim (hs : RangeSim S sem Good P R) {H : Nat → OSV} (hg : ∀ i, GoodOSV Good (H i))
    (db : HeapDB) (h : HeapSim R H db.heap) (ps : List PackageDetails) (hp : ∀ p ∈ ps, P p) :
    HeapSim R H (db.check S sem ps).2.heap ∧ (db.check S sem ps).2.index = db.index := by
  induction ps generalizing db with
  | nil => exact ⟨h, rfl⟩
  | cons p ps ih =>
    unfold HeapDB.check
    dsimp only
    have h1 : HeapSim R H (db.affecting S sem p).2.heap ∧ (db.affecting S sem p).2.index = db.index := by
      unfold HeapDB.affecting
      split
      · exact ⟨h, rfl⟩
      · exact ⟨foldl_collectStepM_sim hs hg p (hp p (by simp)) _ _ h, rfl⟩
    have h2 := ih (db.affecting S sem p).2 h1.1 (fun q hq => hp q (by simp [hq]))
    exact ⟨h2.1, h2.2.trans h1.2⟩

/-- In every database state related to the freshly loaded one, the check of a package reports exactly the
advisories of the pure model. -/
theorem affecting_eq (hs : RangeSim S sem Good P R) (os : List OSV) (names : List Str)
    (hg : ∀ o ∈ os, GoodOSV Good o) (p : PackageDetails) (hp : P p)
    (heq : ∀ r r', Good r → R r r' → r'.containsVersion S sem p = r.containsVersion S sem p)
    (db : HeapDB) (h : HeapSim R (HeapDB.load os names).heap db.heap)
    (hi : db.index = (HeapDB.load os names).index) :
    (db.affecting S sem p).1.map (fun i => os.getD i default) =
      (MemDB.loadAll os names).vulnerabilitiesAffectingPackage S sem p := by
  have hg' : ∀ i, GoodOSV Good ((HeapDB.load os names).heap i) := by
    intro i
    show GoodOSV Good (os.getD i default)
    rw [List.getD_eq_getElem?_getD]
    cases hx : os[i]? with
    | none => intro a ha; simp [default] at ha
    | some o => exact hg o (List.mem_of_getElem? hx)
  rw [affecting_loadAll, ← collectAffecting_eq, ← load_index_get?]
  unfold HeapDB.affecting
  rw [hi]
  cases hk : (HeapDB.load os names).index.get? p.key with
  | none => rfl
  | some is =>
    simp only [Option.getD_some]
    rw [foldl_collectStepM_eq hs hg' p hp heq is (db.heap, []) h]
    exact foldl_collectPos_map p _ is []

/-- Events only get permuted. -/
theorem permSim (S : Sorter) (sem : Sem) (Good : AffectsRange → Prop) :
    RangeSim S sem Good (fun _ => True) (fun r r' => r'.type = r.type ∧ r.events.Perm r'.events) where
  refl r := ⟨rfl, .refl _⟩
  type_eq _ _ h := h.1
  step r r' p _ _ h := by
    unfold AffectsRange.containsVersionM
    split
    · exact h
    · split
      · exact h
      · exact ⟨h.1, h.2.trans (S.perm _ _).symm⟩

theorem heapSim_refl (hr : ∀ r, R r r) (H : Nat → OSV) : HeapSim R H H := by
  intro i
  exact ⟨rfl, rfl, rfl, rfl, rfl, ListRel.refl _ fun a _ => ⟨rfl, rfl, ListRel.refl _ fun r _ => hr r⟩⟩

end Osv
