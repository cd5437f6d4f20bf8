import Verif.Lemmas.Intervals
/-! # Ranges by a comparison that is lawful on the texts that occur -/
namespace Osv
open Spec

theorem single_version_good {good : Str → Prop} {e : RangeEvent} (hs : Single e) (g : EventBy good e) (hz : e.introduced ≠ g!"0") :
    good e.version := by
  cases hs with
  | introduced v hv =>
    rcases g.1 with h | h | h
    · exact absurd h hv
    · exact absurd h hz
    · simpa [RangeEvent.version, hv] using h
  | fixed v hv =>
    rcases g.2.1 with h | h
    · exact absurd h hv
    · simpa [RangeEvent.version, hv] using h
  | last v hv =>
    rcases g.2.2 with h | h
    · exact absurd h hv
    · simpa [RangeEvent.version, hv] using h

open Classical in
/-- The comparison on the good texts, which come before all others; the others are equal. -/
noncomputable def extend (good : Str → Prop) (cmp : Str → Str → Int) (a b : Str) : Int :=
  if good a then if good b then cmp a b else -1 else if good b then 1 else 0

theorem extend_good {good : Str → Prop} (cmp : Str → Str → Int) {a b : Str} (ha : good a) (hb : good b) : extend good cmp a b = cmp a b := by
  simp [extend, ha, hb]

theorem extend_laws {good : Str → Prop} {cmp : Str → Str → Int} (h : CmpLawsOn good cmp) : CmpLaws (extend good cmp) := by
  refine ⟨fun a => ?_, fun a b => ?_, fun a b c => ?_⟩
  · by_cases ha : good a <;> simp [extend, ha]
    exact h.refl a ha
  · by_cases ha : good a <;> by_cases hb : good b <;> simp [extend, ha, hb]
    exact h.flip a b ha hb
  · by_cases ha : good a <;> by_cases hb : good b <;> by_cases hc : good c <;> simp [extend, ha, hb, hc]
    exact h.trans a b c ha hb hc

theorem eventStep_congr {good : Str → Prop} {cmp cmp' : Str → Str → Int} (h : ∀ a b, good a → good b → cmp a b = cmp' a b) {v : Str}
    (hv : good v) (b : Bool) {e : RangeEvent} (he : EventBy good e) : eventStep cmp v b e = eventStep cmp' v b e := by
  obtain ⟨h1, h2, h3⟩ := he
  have f : e.fixed ≠ [] → cmp v e.fixed = cmp' v e.fixed := fun hn => h _ _ hv (h2.resolve_left hn)
  have l : e.lastAffected ≠ [] → cmp v e.lastAffected = cmp' v e.lastAffected := fun hn => h _ _ hv (h3.resolve_left hn)
  unfold eventStep
  cases b with
  | true =>
    simp only [if_true]
    by_cases hf : e.fixed = []
    · by_cases hl : e.lastAffected = []
      · simp [hf, hl]
      · simp only [hf, ne_eq, not_true_eq_false, if_false, hl, not_false_eq_true, if_true, l hl]
    · simp only [ne_eq, hf, not_false_eq_true, if_true, f hf]
  | false =>
    simp only [Bool.false_eq_true, if_false]
    by_cases hi : e.introduced = []
    · simp [hi]
    · rcases h1 with h1 | h1 | h1
      · exact absurd h1 hi
      · simp [h1]
      · simp only [h _ _ hv h1]

theorem eventsContain_congr {good : Str → Prop} {cmp cmp' : Str → Str → Int} (h : ∀ a b, good a → good b → cmp a b = cmp' a b) {v : Str}
    (hv : good v) {es : List RangeEvent} (he : ∀ e ∈ es, EventBy good e) : eventsContain cmp v es = eventsContain cmp' v es := by
  unfold eventsContain
  generalize false = b
  induction es generalizing b with
  | nil => rfl
  | cons e es ih =>
    rw [List.foldl_cons, List.foldl_cons, eventStep_congr h hv b (he e (List.mem_cons_self ..))]
    exact ih (fun f hf => he f (List.mem_cons_of_mem _ hf)) _

theorem eventLess_congr {good : Str → Prop} {cmp cmp' : Str → Str → Int} (h : ∀ a b, good a → good b → cmp a b = cmp' a b) {a b : RangeEvent}
    (ha : Single a) (hb : Single b) (ga : EventBy good a) (gb : EventBy good b) : eventLess cmp a b = eventLess cmp' a b := by
  unfold eventLess
  by_cases h1 : a.introduced = g!"0"
  · simp [h1]
  · by_cases h2 : b.introduced = g!"0"
    · simp [h1, h2]
    · simp only [h1, h2, if_false, h _ _ (single_version_good ha ga h1) (single_version_good hb gb h2)]

/-- A comparison that is lawful on some texts, and agrees there with an order. -/
structure AgreesOn (cmp : Str → Str → Int) (good : Str → Prop) (older : Str → Str → Prop) : Prop where
  laws : CmpLawsOn good cmp
  lt : ∀ {s t}, good s → good t → (cmp s t < 0 ↔ older s t)

theorem Agrees.on {cmp : Str → Str → Int} {good : Str → Prop} {older : Str → Str → Prop} (h : Agrees cmp good older) :
    AgreesOn cmp good older := ⟨⟨fun a _ => h.laws.refl a, fun a b _ _ => h.laws.flip a b, fun a b c _ _ _ => h.laws.trans a b c⟩, h.lt⟩

theorem AgreesOn.extend {cmp : Str → Str → Int} {good : Str → Prop} {older : Str → Str → Prop} (h : AgreesOn cmp good older) :
    Agrees (extend good cmp) good older := ⟨extend_laws h.laws, fun hs ht => by rw [extend_good cmp hs ht]; exact h.lt hs ht⟩

theorem AgreesOn.contains (S : Sorter) {cmp : Str → Str → Int} {good : Str → Prop} {older : Str → Str → Prop} (h : AgreesOn cmp good older)
    {es : List RangeEvent} {v : Str} (hv : good v) (he : ∀ e ∈ es, EventBy good e) (hs : ∀ e ∈ es, Single e)
    (ha : es.Pairwise (ApartBy older)) : eventsContain cmp v (S.sort (eventLess cmp) es) = true ↔ IntervalBy older es v := by
  have H := h.extend
  have cg : ∀ a b, good a → good b → cmp a b = Osv.extend good cmp a b := fun a b x y => (extend_good cmp x y).symm
  have hw := H.wellFormed he hs ha
  have hp := S.perm (eventLess cmp) es
  have hw' := hw.perm H.laws hp.symm
  have sorted : (S.sort (eventLess cmp) es).Pairwise (fun a b => eventLt (Osv.extend good cmp) b a = false) := by
    apply S.sorted (eventLess cmp) (eventLt (Osv.extend good cmp)) es (eventLt_strictWeak H.laws)
    refine List.Pairwise.imp_of_mem (fun {a b} ma mb hz => ?_) hw.separated
    rw [eventLess_congr cg (hs a ma) (hs b mb) (he a ma) (he b mb), eventLess_congr cg (hs b mb) (hs a ma) (he b mb) (he a ma)]
    exact ⟨eventLess_eq_eventLt _ a b hz.1, eventLess_eq_eventLt _ b a fun hh => hz.1 ⟨hh.2, hh.1⟩⟩
  rw [eventsContain_congr cg hv fun e me => he e (hp.mem_iff.mp me), eventsContain_sorted H.laws v _ hw'.single hw'.separated sorted,
    InRange.perm_iff hp]
  exact H.inRange hv he

end Osv
