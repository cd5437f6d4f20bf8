import Verif.Spec.Version
/-! Helper lemmas about `containsVersion`. -/
namespace Osv
open Spec

theorem versioned_iff (r : AffectsRange) :
    r.versioned = true ↔ r.type = g!"ECOSYSTEM" ∨ r.type = g!"SEMVER" := by
  unfold AffectsRange.versioned typeEcosystem typeSemver
  rw [Bool.or_eq_true, decide_eq_true_iff, decide_eq_true_iff]

/-- An introduction event opens the range for `v`. -/
def opens (cmp : Str → Str → Int) (v : Str) (e : RangeEvent) : Prop :=
  e.introduced ≠ [] ∧ (e.introduced = g!"0" ∨ cmp v e.introduced ≥ 0)

/-- An event does not close an open range for `v`. -/
def keeps (cmp : Str → Str → Int) (v : Str) (e : RangeEvent) : Prop :=
  (e.fixed ≠ [] → cmp v e.fixed < 0) ∧
  (e.fixed = [] → e.lastAffected ≠ [] → e.lastAffected = v ∨ cmp v e.lastAffected ≤ 0)

theorem eventStep_true (cmp : Str → Str → Int) (v : Str) (e : RangeEvent) :
    eventStep cmp v true e = true ↔ keeps cmp v e := by
  unfold eventStep keeps
  by_cases h1 : e.fixed = [] <;> by_cases h2 : e.lastAffected = [] <;> simp [h1, h2]

theorem eventStep_false (cmp : Str → Str → Int) (v : Str) (e : RangeEvent) :
    eventStep cmp v false e = true ↔ opens cmp v e := by
  unfold eventStep opens
  by_cases h1 : e.introduced = [] <;> simp [h1]

theorem foldl_eventStep (cmp : Str → Str → Int) (v : Str) (es : List RangeEvent) (b : Bool)
    (hk : ∀ e ∈ es, opens cmp v e → keeps cmp v e) :
    es.foldl (eventStep cmp v) b = true ↔
      (b = true ∧ ∀ f ∈ es, keeps cmp v f) ∨
      ∃ p e q, es = p ++ e :: q ∧ opens cmp v e ∧ ∀ f ∈ q, keeps cmp v f := by
  induction es generalizing b with
  | nil => simp
  | cons e es ih =>
    have hk' : ∀ f ∈ es, opens cmp v f → keeps cmp v f :=
      fun f hf => hk f (List.mem_cons_of_mem _ hf)
    rw [List.foldl_cons, ih _ hk']
    constructor
    · rintro (⟨h1, h2⟩ | ⟨p, f, q, rfl, h⟩)
      · cases b with
        | true =>
          rw [eventStep_true] at h1
          left
          refine ⟨rfl, fun f hf => ?_⟩
          rcases List.mem_cons.mp hf with rfl | hf
          · exact h1
          · exact h2 f hf
        | false =>
          rw [eventStep_false] at h1
          right
          exact ⟨[], e, es, rfl, h1, h2⟩
      · right
        exact ⟨e :: p, f, q, rfl, h⟩
    · rintro (⟨rfl, h2⟩ | ⟨p, f, q, h, h1, h2⟩)
      · left
        rw [eventStep_true]
        exact ⟨h2 e (List.mem_cons_self ..), fun f hf => h2 f (List.mem_cons_of_mem _ hf)⟩
      · cases p with
        | nil =>
          simp only [List.nil_append, List.cons.injEq] at h
          obtain ⟨rfl, rfl⟩ := h
          left
          refine ⟨?_, h2⟩
          cases b with
          | true => rw [eventStep_true]; exact hk e (List.mem_cons_self ..) h1
          | false => rw [eventStep_false]; exact h1
        | cons x p =>
          simp only [List.cons_append, List.cons.injEq] at h
          obtain ⟨rfl, rfl⟩ := h
          right
          exact ⟨p, f, q, rfl, h1, h2⟩

/-- Strict order of events: the introduction `"0"` first, then by version. -/
def eventLt (cmp : Str → Str → Int) (a b : RangeEvent) : Bool :=
  if b.introduced = g!"0" then false
  else if a.introduced = g!"0" then true
  else decide (cmp a.version b.version < 0)

theorem Spec.CmpLaws.flip_le {cmp : Str → Str → Int} (h : CmpLaws cmp) (a b : Str) :
    cmp a b ≤ 0 ↔ 0 ≤ cmp b a := by
  have h1 := h.flip b a
  omega

theorem eventLt_strictWeak {cmp : Str → Str → Int} (h : CmpLaws cmp) : StrictWeak (eventLt cmp) where
  irrefl a := by
    unfold eventLt
    split
    · rfl
    · simp [h.refl]
  trans a b c := by
    unfold eventLt
    by_cases ha : a.introduced = g!"0" <;> by_cases hb : b.introduced = g!"0" <;>
      by_cases hc : c.introduced = g!"0" <;> simp [ha, hb, hc]
    intro h1 h2
    have h3 := h.trans _ _ _ (Int.le_of_lt h1) (Int.le_of_lt h2)
    rcases Int.lt_or_eq_of_le h3 with h4 | h4
    · exact h4
    · exfalso
      -- c ≤ a ≤ b gives c ≤ b
      have h5 : cmp c.version a.version ≤ 0 := by rw [h.flip_le]; omega
      have h6 := h.trans _ _ _ h5 (Int.le_of_lt h1)
      rw [h.flip] at h2
      omega
  cotrans a b c := by
    unfold eventLt
    by_cases ha : a.introduced = g!"0" <;> by_cases hb : b.introduced = g!"0" <;>
      by_cases hc : c.introduced = g!"0" <;> simp [ha, hb, hc]
    intro h1
    by_cases h2 : cmp a.version b.version < 0
    · exact .inl h2
    · right
      by_cases h3 : cmp b.version c.version < 0
      · exact h3
      · exfalso
        have e1 : cmp b.version a.version ≤ 0 := by rw [h.flip_le]; omega
        have e2 : cmp c.version b.version ≤ 0 := by rw [h.flip_le]; omega
        have e3 := h.trans _ _ _ e2 e1
        rw [h.flip] at h1
        omega

/-- On two events that are not both the introduction `"0"`, `less` is the strict order. -/
theorem eventLess_eq_eventLt (cmp : Str → Str → Int) (a b : RangeEvent)
    (h : ¬ (a.introduced = g!"0" ∧ b.introduced = g!"0")) : eventLess cmp a b = eventLt cmp a b := by
  unfold eventLess eventLt
  by_cases ha : a.introduced = g!"0" <;> by_cases hb : b.introduced = g!"0" <;> simp_all

theorem Spec.Separated.symm {cmp : Str → Str → Int} (hc : CmpLaws cmp) {a b : RangeEvent}
    (h : Separated cmp a b) : Separated cmp b a := by
  refine ⟨fun hh => h.1 ⟨hh.2, hh.1⟩, fun h1 h2 h3 => ?_⟩
  have h4 : cmp a.version b.version = 0 := by
    have e1 := hc.flip a.version b.version
    have e2 := hc.flip b.version a.version
    omega
  exact (h.2 h2 h1 h4).symm

/-- The sorted events, for every sort routine satisfying the contract. -/
theorem sorted_events (S : Sorter) {cmp : Str → Str → Int} (hc : CmpLaws cmp) (es : List RangeEvent)
    (hz : es.Pairwise (fun a b => ¬ (a.introduced = g!"0" ∧ b.introduced = g!"0"))) :
    (S.sort (eventLess cmp) es).Pairwise (fun a b => eventLt cmp b a = false) := by
  apply S.sorted (eventLess cmp) (eventLt cmp) es (eventLt_strictWeak hc)
  refine hz.imp ?_
  intro a b h
  exact ⟨eventLess_eq_eventLt cmp a b h, eventLess_eq_eventLt cmp b a (fun hh => h ⟨hh.2, hh.1⟩)⟩

theorem Spec.Single.not_both {e : RangeEvent} (h : Single e) (hi : e.introduced ≠ []) :
    e.fixed = [] ∧ e.lastAffected = [] ∧ e.version = e.introduced := by
  cases h with
  | introduced v hv => exact ⟨rfl, rfl, by simp [RangeEvent.version, hv]⟩
  | fixed v hv => exact absurd rfl hi
  | last v hv => exact absurd rfl hi

theorem Spec.Single.fixed_ne {e : RangeEvent} (h : Single e) (hf : e.fixed ≠ []) :
    e.introduced = [] ∧ e.lastAffected = [] ∧ e.version = e.fixed := by
  cases h with
  | introduced v hv => exact absurd rfl hf
  | fixed v hv => exact ⟨rfl, rfl, by simp [RangeEvent.version, hv]⟩
  | last v hv => exact absurd rfl hf

theorem Spec.Single.last_ne {e : RangeEvent} (h : Single e) (hf : e.lastAffected ≠ []) :
    e.introduced = [] ∧ e.fixed = [] ∧ e.version = e.lastAffected := by
  cases h with
  | introduced v hv => exact absurd rfl hf
  | fixed v hv => exact absurd rfl hf
  | last v hv => exact ⟨rfl, rfl, by simp [RangeEvent.version, hv]⟩

theorem nil_ne_zero : ([] : Str) ≠ g!"0" := by decide

/-- The loop over sorted well-formed events decides `InRange`. -/
theorem eventsContain_sorted {cmp : Str → Str → Int} (hc : CmpLaws cmp) (v : Str) (es : List RangeEvent)
    (hs : ∀ e ∈ es, Single e) (hsep : es.Pairwise (Separated cmp))
    (hsort : es.Pairwise (fun a b => eventLt cmp b a = false)) :
    eventsContain cmp v es = true ↔ InRange cmp es v := by
  have hk : ∀ e ∈ es, opens cmp v e → keeps cmp v e := by
    intro e he ho
    obtain ⟨h1, h2, _⟩ := (hs e he).not_both ho.1
    exact ⟨fun h => absurd h1 h, fun _ h => absurd h2 h⟩
  unfold eventsContain
  rw [foldl_eventStep cmp v es false hk]
  simp only [Bool.false_eq_true, false_and, false_or]
  constructor
  · rintro ⟨p, e, q, rfl, ⟨ho1, ho2⟩, hq⟩
    have he : e ∈ p ++ e :: q := by simp
    obtain ⟨e1, e2, e3⟩ := (hs e he).not_both ho1
    refine ⟨e, he, ho1, ?_, ?_, ?_⟩
    · rcases ho2 with h | h
      · exact .inl h
      · right; rw [hc.flip_le]; exact h
    · intro f hf hfix hlt
      obtain ⟨f1, f2, f3⟩ := (hs f hf).fixed_ne hfix
      rcases List.mem_append.mp hf with hp | hq'
      · exfalso
        have := (List.pairwise_append.mp hsort).2.2 f hp e (by simp)
        unfold eventLt at this
        rw [f1, if_neg nil_ne_zero, e3, f3] at this
        rcases hlt with h | h
        · simp [h] at this
        · split at this
          · cases this
          · simp [h] at this
      · rcases List.mem_cons.mp hq' with rfl | hq'
        · exact absurd f1 ho1
        · exact (hq f hq').1 hfix
    · intro l hl hlast hle
      obtain ⟨l1, l2, l3⟩ := (hs l hl).last_ne hlast
      rcases List.mem_append.mp hl with hp | hq'
      · exfalso
        have h1 := (List.pairwise_append.mp hsort).2.2 l hp e (by simp)
        have h2 := (List.pairwise_append.mp hsep).2.2 l hp e (by simp)
        unfold eventLt at h1
        rw [l1, if_neg nil_ne_zero, e3, l3] at h1
        by_cases h0 : e.introduced = g!"0"
        · simp [h0] at h1
        · rw [if_neg h0] at h1
          have h1' := of_decide_eq_false h1
          rcases hle with h | h
          · exact h0 h
          · have := h2.2 (by rw [l1]; exact nil_ne_zero) h0 (by
              rw [e3, l3]
              have a1 := hc.flip e.introduced l.lastAffected
              have a2 := hc.flip l.lastAffected e.introduced
              omega)
            exact absurd l1 (this.mpr ho1)
      · rcases List.mem_cons.mp hq' with rfl | hq'
        · exact absurd l1 ho1
        · rcases (hq l hq').2 l2 hlast with h | h
          · rw [h, hc.refl]; exact Int.le_refl 0
          · exact h
  · rintro ⟨i, hi, hint, hle, hfix, hlast⟩
    obtain ⟨p, q, rfl⟩ := List.append_of_mem hi
    obtain ⟨e1, e2, e3⟩ := (hs i hi).not_both hint
    refine ⟨p, i, q, rfl, ⟨hint, ?_⟩, ?_⟩
    · rcases hle with h | h
      · exact .inl h
      · right; rw [hc.flip_le] at h; exact h
    · intro f hf
      have hf' : f ∈ p ++ i :: q := by simp [hf]
      have h1 := (List.pairwise_cons.mp (List.pairwise_append.mp hsort).2.1).1 f hf
      have h2 := (List.pairwise_cons.mp (List.pairwise_append.mp hsep).2.1).1 f hf
      constructor
      · intro hfx
        obtain ⟨f1, f2, f3⟩ := (hs f hf').fixed_ne hfx
        apply hfix f hf' hfx
        by_cases h0 : i.introduced = g!"0"
        · exact .inl h0
        · right
          unfold eventLt at h1
          rw [if_neg h0, f1, if_neg nil_ne_zero, e3, f3] at h1
          have h1' := of_decide_eq_false h1
          have a1 := hc.flip i.introduced f.fixed
          have a2 := hc.flip f.fixed i.introduced
          rcases Int.lt_or_eq_of_le (show cmp i.introduced f.fixed ≤ 0 by omega) with h | h
          · exact h
          · have := h2.2 h0 (by rw [f1]; exact nil_ne_zero) (by rw [e3, f3]; exact h)
            exact absurd f1 (this.mp hint)
      · intro _ hl
        obtain ⟨f1, f2, f3⟩ := (hs f hf').last_ne hl
        right
        apply hlast f hf' hl
        by_cases h0 : i.introduced = g!"0"
        · exact .inl h0
        · right
          unfold eventLt at h1
          rw [if_neg h0, f1, if_neg nil_ne_zero, e3, f3] at h1
          have h1' := of_decide_eq_false h1
          have a1 := hc.flip i.introduced f.lastAffected
          have a2 := hc.flip f.lastAffected i.introduced
          omega

theorem Spec.InRange.perm {cmp : Str → Str → Int} {a b : List RangeEvent} (h : a.Perm b) {v : Str}
    (hr : InRange cmp a v) : InRange cmp b v := by
  obtain ⟨i, hi, h1, h2, h3, h4⟩ := hr
  exact ⟨i, h.mem_iff.mp hi, h1, h2, fun f hf => h3 f (h.mem_iff.mpr hf),
    fun f hf => h4 f (h.mem_iff.mpr hf)⟩

theorem Spec.InRange.perm_iff {cmp : Str → Str → Int} {a b : List RangeEvent} (h : a.Perm b) {v : Str} :
    InRange cmp a v ↔ InRange cmp b v := ⟨InRange.perm h, InRange.perm h.symm⟩

theorem Spec.WellFormed.perm {cmp : Str → Str → Int} (hc : CmpLaws cmp) {a b : List RangeEvent}
    (h : a.Perm b) (hw : WellFormed cmp a) : WellFormed cmp b :=
  ⟨fun e he => hw.single e (h.mem_iff.mpr he),
   (h.pairwise_iff (fun hab => Separated.symm hc hab)).mp hw.separated⟩

/-- Sorting and looping decides `InRange`, whatever the order of the given events. -/
theorem eventsContain_sort (S : Sorter) {cmp : Str → Str → Int} (hc : CmpLaws cmp) (v : Str)
    (es : List RangeEvent) (hw : WellFormed cmp es) :
    eventsContain cmp v (S.sort (eventLess cmp) es) = true ↔ InRange cmp es v := by
  have hp := S.perm (eventLess cmp) es
  have hw' := hw.perm hc hp.symm
  rw [eventsContain_sorted hc v _ hw'.single hw'.separated
    (sorted_events S hc es (hw.separated.imp fun h => h.1))]
  exact InRange.perm_iff hp

end Osv
