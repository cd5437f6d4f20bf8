import Verif.Lemmas.MemHeap
import Verif.Props.C01
import Verif.Spec.Samples
/-!
# C02 Checks do not depend on what was checked before

Every check may reorder the events of the advisories it looks at, in place and visible to all later checks.
-/
namespace Osv
open Spec

/-- The events of all versioned ranges are well formed for the given version order. -/
def WellFormedRanges (cmp : Str → Str → Int) (o : OSV) : Prop :=
  ∀ a ∈ o.affected, ∀ r ∈ a.ranges, r.versioned = true → WellFormed cmp r.events

/-- After any history of checks (of any packages, with any comparison ecosystems, lawful or not), checking a
package reports exactly the advisories that the model without in-place sorting reports on the loaded
advisories. -/
theorem C02_refines_pure_partial (S : Sorter) (sem : Sem) (os : List OSV) (names : List Str)
    (history : List PackageDetails) (pkg : PackageDetails)
    (hc : CmpLaws (sem pkg.compareAs)) (hw : ∀ o ∈ os, WellFormedRanges (sem pkg.compareAs) o) :
    ((((HeapDB.load os names).check S sem history).2.affecting S sem pkg).1).map (fun i => os.getD i default) =
      (MemDB.loadAll os names).vulnerabilitiesAffectingPackage S sem pkg := by
  have hs := permSim S sem (fun r => WellFormed (sem pkg.compareAs) r.events)
  have hg : ∀ o ∈ os, GoodOSV (fun r => WellFormed (sem pkg.compareAs) r.events) o := hw
  have hg0 : ∀ i, GoodOSV (fun r => WellFormed (sem pkg.compareAs) r.events) ((HeapDB.load os names).heap i) := by
    intro i
    show GoodOSV _ (os.getD i default)
    rw [List.getD_eq_getElem?_getD]
    cases hx : os[i]? with
    | none => intro a ha; simp [default] at ha
    | some o => exact hg o (List.mem_of_getElem? hx)
  obtain ⟨h1, h2⟩ := check_sim hs hg0 (HeapDB.load os names) (heapSim_refl hs.refl _) history (fun _ _ => trivial)
  refine affecting_eq hs os names hg pkg trivial ?_ _ h1 h2
  intro r r' hgood hr
  have := C01_event_order_irrelevant S S sem r.type r'.events r.events hr.2.symm pkg hc
    (hgood.perm hc hr.2)
  rw [← hr.1] at this
  rw [show r' = ⟨r'.type, r'.events⟩ from rfl, this, hr.1]

/-- History independence: the answer for a package is the same after any two histories. -/
theorem C02_history_independent_partial (S : Sorter) (sem : Sem) (os : List OSV) (names : List Str)
    (h₁ h₂ : List PackageDetails) (pkg : PackageDetails)
    (hc : CmpLaws (sem pkg.compareAs)) (hw : ∀ o ∈ os, WellFormedRanges (sem pkg.compareAs) o) :
    ((((HeapDB.load os names).check S sem h₁).2.affecting S sem pkg).1).map (fun i => os.getD i default) =
    ((((HeapDB.load os names).check S sem h₂).2.affecting S sem pkg).1).map (fun i => os.getD i default) := by
  rw [C02_refines_pure_partial S sem os names h₁ pkg hc hw, C02_refines_pure_partial S sem os names h₂ pkg hc hw]

/-- Two introductions `"0"` in one range. -/
def AtMostOneZero (es : List RangeEvent) : Prop :=
  es.Pairwise (fun a b => ¬ (a.introduced = g!"0" ∧ b.introduced = g!"0"))

theorem sort_idem (S : Sorter) {cmp : Str → Str → Int} (hc : CmpLaws cmp) (es : List RangeEvent)
    (hz : AtMostOneZero es) :
    S.sort (eventLess cmp) (S.sort (eventLess cmp) es) = S.sort (eventLess cmp) es := by
  apply S.fixed
  have h1 := sorted_events S hc es hz
  have h2 : AtMostOneZero (S.sort (eventLess cmp) es) :=
    ((S.perm (eventLess cmp) es).pairwise_iff (fun h hh => h ⟨hh.2, hh.1⟩)).mpr hz
  refine (h1.and h2).imp ?_
  intro a b ⟨h3, h4⟩
  rw [eventLess_eq_eventLt cmp b a (fun hh => h4 ⟨hh.2, hh.1⟩)]
  exact h3

/-- Even with tied events, the answer does not depend on the history as long as all checks use the same
version order (all packages of a real lockfile format do) and no range introduces `"0"` twice. -/
theorem C02_same_order_ties_allowed_partial (S : Sorter) (sem : Sem) (os : List OSV) (names : List Str)
    (history : List PackageDetails) (pkg : PackageDetails)
    (hsame : ∀ p ∈ history, sem p.compareAs = sem pkg.compareAs)
    (hc : CmpLaws (sem pkg.compareAs))
    (hz : ∀ o ∈ os, ∀ a ∈ o.affected, ∀ r ∈ a.ranges, r.versioned = true → AtMostOneZero r.events) :
    ((((HeapDB.load os names).check S sem history).2.affecting S sem pkg).1).map (fun i => os.getD i default) =
      (MemDB.loadAll os names).vulnerabilitiesAffectingPackage S sem pkg := by
  let Good : AffectsRange → Prop := fun r => AtMostOneZero r.events
  let R : AffectsRange → AffectsRange → Prop := fun r r' => r'.type = r.type ∧
    (r'.events = r.events ∨ r'.events = S.sort (eventLess (sem pkg.compareAs)) r.events)
  have hs : RangeSim S sem Good (fun p => sem p.compareAs = sem pkg.compareAs) R := by
    refine ⟨fun r => ⟨rfl, .inl rfl⟩, fun _ _ h => h.1, ?_⟩
    intro r r' p hgood hp h
    unfold AffectsRange.containsVersionM
    split
    · exact h
    · split
      · exact h
      · refine ⟨h.1, .inr ?_⟩
        simp only [hp]
        rcases h.2 with h2 | h2
        · rw [h2]
        · rw [h2, sort_idem S hc _ hgood]
  have hg : ∀ o ∈ os, GoodOSV Good o := hz
  have hg0 : ∀ i, GoodOSV Good ((HeapDB.load os names).heap i) := by
    intro i
    show GoodOSV _ (os.getD i default)
    rw [List.getD_eq_getElem?_getD]
    cases hx : os[i]? with
    | none => intro a ha; simp [default] at ha
    | some o => exact hg o (List.mem_of_getElem? hx)
  obtain ⟨h1, h2⟩ := check_sim hs hg0 (HeapDB.load os names) (heapSim_refl hs.refl _) history hsame
  refine affecting_eq hs os names hg pkg rfl ?_ _ h1 h2
  intro r r' hgood hr
  unfold AffectsRange.containsVersion AffectsRange.versioned
  rw [hr.1]
  rcases hr.2 with h2 | h2
  · rw [h2]
  · rw [h2, sort_idem S hc _ hgood]
    have : (S.sort (eventLess (sem pkg.compareAs)) r.events).length = r.events.length :=
      (S.perm _ _).length_eq
    rw [this]

/-- Order by length, for the counterexample. -/
def lenCmp (a b : Str) : Int := (a.length : Int) - (b.length : Int)

theorem lenCmp_laws : CmpLaws lenCmp where
  refl a := by simp [lenCmp]
  flip a b := by unfold lenCmp; omega
  trans a b c := by unfold lenCmp; omega

/-- Without well-formedness, checks with different comparison ecosystems do interfere: an introduction and a
fix that are tied in one order but not in the other. Both orders are lawful, and the effect exists for every
sort routine. -/
theorem C02_mixed_orders_with_ties_interfere :
    ∃ (sem : Sem) (os : List OSV) (history : List PackageDetails) (pkg : PackageDetails),
      (∀ eco, CmpLaws (sem eco)) ∧
      ∀ S : Sorter,
        ((((HeapDB.load os []).check S sem []).2.affecting S sem pkg).1) ≠
        ((((HeapDB.load os []).check S sem history).2.affecting S sem pkg).1) ∧
        ((((HeapDB.load os []).check S sem []).2.affecting S sem pkg).1).length ≠
        ((((HeapDB.load os []).check S sem history).2.affecting S sem pkg).1).length := by
  let sem : Sem := fun eco => if eco = g!"len" then lenCmp else numCmp
  let es : List RangeEvent := [evFixed g!"01", evIntro g!"1"]
  let o : OSV := { id := g!"A", affected := [{ package := ⟨g!"foo", g!"npm"⟩, ranges := [⟨g!"SEMVER", es⟩] }] }
  let p1 : PackageDetails := { name := g!"foo", version := g!"2", ecosystem := g!"npm", compareAs := g!"len" }
  let p2 : PackageDetails := { name := g!"foo", version := g!"2", ecosystem := g!"npm", compareAs := g!"npm" }
  refine ⟨sem, [o], [p1], p2, ?_, ?_⟩
  · intro eco
    by_cases h : eco = g!"len"
    · simp only [sem, if_pos h]; exact lenCmp_laws
    · simp only [sem, if_neg h]; exact numCmp_laws
  · intro S
    have hlen : S.sort (eventLess lenCmp) es = [evIntro g!"1", evFixed g!"01"] := by
      have hp := S.perm (eventLess lenCmp) es
      have hs := sorted_events S lenCmp_laws es (by decide)
      generalize S.sort (eventLess lenCmp) es = l at hp hs
      have hp' : l.Perm [evIntro g!"1", evFixed g!"01"] := hp.trans (List.Perm.swap _ _ _)
      refine List.Perm.eq_of_pairwise ?_ hs (by decide) hp'
      intro a b ha hb h1 h2
      have ha' := hp'.mem_iff.mp ha
      have hb' : b ∈ [evIntro g!"1", evFixed g!"01"] := hb
      simp only [List.mem_cons, List.not_mem_nil, or_false] at ha' hb'
      rcases ha' with rfl | rfl <;> rcases hb' with rfl | rfl
      · rfl
      · revert h1 h2; decide
      · revert h1 h2; decide
      · rfl
    have hnum1 : S.sort (eventLess numCmp) es = es := S.fixed _ _ (by decide)
    have hnum2 : S.sort (eventLess numCmp) [evIntro g!"1", evFixed g!"01"] = [evIntro g!"1", evFixed g!"01"] :=
      S.fixed _ _ (by decide)
    have hsem1 : sem p1.compareAs = lenCmp := rfl
    have hsem2 : sem p2.compareAs = numCmp := rfl
    have hk1 : (HeapDB.load [o] []).index.get? p1.key = some [0] := by decide
    have hk2 : (HeapDB.load [o] []).index.get? p2.key = some [0] := by decide
    -- first check
    have hr1 : ∀ (es' : List RangeEvent) (p : PackageDetails) (srt : List RangeEvent) (cmp : Str → Str → Int),
        sem p.compareAs = cmp → es'.length ≠ 0 →
        S.sort (eventLess cmp) es' = srt →
        AffectsRange.containsVersionM S sem ⟨g!"SEMVER", es'⟩ p =
          (eventsContain cmp p.version srt, ⟨g!"SEMVER", srt⟩) := by
      intro es' p srt cmp hcmp hne hsrt
      unfold AffectsRange.containsVersionM
      simp only [hcmp, hsrt]
      rw [if_neg (by simp [AffectsRange.versioned, typeSemver]), if_neg hne]
    have e1 := hr1 es p1 _ lenCmp hsem1 (by decide) hlen
    have e2 := hr1 es p2 _ numCmp hsem2 (by decide) hnum1
    have e3 := hr1 [evIntro g!"1", evFixed g!"01"] p2 _ numCmp hsem2 (by decide) hnum2
    have hm : ∀ (es' : List RangeEvent) (p : PackageDetails) (srt : List RangeEvent) (b : Bool),
        p.name = g!"foo" → p.ecosystem = g!"npm" → p.version ≠ [] →
        AffectsRange.containsVersionM S sem ⟨g!"SEMVER", es'⟩ p = (b, ⟨g!"SEMVER", srt⟩) →
        matchEntriesM S sem p [{ package := ⟨g!"foo", g!"npm"⟩, ranges := [⟨g!"SEMVER", es'⟩] }] =
          (b, [{ package := ⟨g!"foo", g!"npm"⟩, ranges := [⟨g!"SEMVER", srt⟩] }]) := by
      intro es' p srt b hn he hv hcv
      have hg : (areEcosystemsEqual g!"npm" g!"npm" &&
        decide (Package.normalizedName ⟨g!"foo", g!"npm"⟩ = g!"foo")) = true := by decide
      have hver : AffectsRange.versioned ⟨g!"SEMVER", es'⟩ = true := rfl
      unfold matchEntriesM Affected.matchesPkgM
      simp only [hn, he, hg, if_true, affectsVersionM, hver, hcv]
      cases b <;> simp [hv, matchEntriesM]
    have m1 := hm es p1 _ _ rfl rfl (by decide) e1
    have m2 := hm es p2 _ _ rfl rfl (by decide) e2
    have m3 := hm _ p2 _ _ rfl rfl (by decide) e3
    have c1 : eventsContain numCmp p2.version es = true := by decide
    have c3 : eventsContain numCmp p2.version [evIntro g!"1", evFixed g!"01"] = false := by decide
    rw [c1] at m2
    rw [c3] at m3
    have hh0 : (HeapDB.load [o] []).heap 0 = o := rfl
    have hA : ((HeapDB.load [o] []).affecting S sem p2).1 = [0] := by
      unfold HeapDB.affecting
      rw [hk2]
      simp only [List.foldl_cons, List.foldl_nil]
      unfold collectStepM
      simp only [hh0]
      rw [show o.affected = [{ package := ⟨g!"foo", g!"npm"⟩, ranges := [⟨g!"SEMVER", es⟩] }] from rfl, m2]
      simp [o, includesVuln]
    have hB : (((HeapDB.load [o] []).affecting S sem p1).2.affecting S sem p2).1 = [] := by
      have hi : ((HeapDB.load [o] []).affecting S sem p1).2.index = (HeapDB.load [o] []).index := by
        unfold HeapDB.affecting; rw [hk1]
      have hheap : ((HeapDB.load [o] []).affecting S sem p1).2.heap 0 =
          ({ id := g!"A", affected := [⟨⟨g!"foo", g!"npm"⟩, [], [⟨g!"SEMVER", [evIntro g!"1", evFixed g!"01"]⟩]⟩] } : OSV) := by
        unfold HeapDB.affecting
        rw [hk1]
        simp only [List.foldl_cons, List.foldl_nil]
        unfold collectStepM
        simp only [hh0]
        rw [show o.affected = [{ package := ⟨g!"foo", g!"npm"⟩, ranges := [⟨g!"SEMVER", es⟩] }] from rfl, m1]
        simp only [o, Option.isNone_none, if_true]
        split <;> rfl
      generalize ((HeapDB.load [o] []).affecting S sem p1).2 = db at hi hheap
      unfold HeapDB.affecting
      rw [hi, hk2]
      simp only [List.foldl_cons, List.foldl_nil]
      unfold collectStepM
      simp only [hheap, m3]
      simp
    simp only [HeapDB.check]
    rw [hA, hB]
    decide

/-- The full claim: the answer for a package is the same after any two histories of checks. -/
def C02_full : Prop :=
  ∀ (S : Sorter) (sem : Sem) (os : List OSV) (names : List Str) (h₁ h₂ : List PackageDetails) (pkg : PackageDetails),
    (∀ eco, CmpLaws (sem eco)) →
    ((((HeapDB.load os names).check S sem h₁).2.affecting S sem pkg).1).map (fun i => os.getD i default) =
    ((((HeapDB.load os names).check S sem h₂).2.affecting S sem pkg).1).map (fun i => os.getD i default)

theorem C02_counterexample : ¬ C02_full := by
  intro h
  obtain ⟨sem, os, hist, pkg, hc, hn⟩ := C02_mixed_orders_with_ties_interfere
  obtain ⟨hlen, hne⟩ := hn Sorter.insertion
  have := congrArg List.length (h Sorter.insertion sem os [] [] hist pkg hc)
  simp only [List.length_map] at this
  exact hne this

/-- The hypotheses are satisfiable: a database with an out-of-order two-interval range. -/
example : let o : OSV := { id := g!"A", affected :=
      [{ package := ⟨g!"foo", g!"npm"⟩, ranges := [⟨g!"SEMVER", sampleEvents⟩] }] }
    CmpLaws (numSem g!"npm") ∧ WellFormedRanges (numSem g!"npm") o ∧
    ((HeapDB.load [o] []).affecting Sorter.insertion numSem
      { name := g!"foo", version := g!"6", ecosystem := g!"npm", compareAs := g!"npm" }).1 = [0] := by
  refine ⟨numCmp_laws, ?_, by decide⟩
  intro a ha r hr _
  simp at ha; subst ha
  simp at hr; subst hr
  exact sampleEvents_wf

end Osv
