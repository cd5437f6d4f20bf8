import Verif.Lemmas.Version
import Verif.Spec.Intervals
/-! # Ranges by an order of version texts -/
namespace Osv
open Spec

/-- A comparison that agrees, on some texts, with an order. -/
structure Agrees (cmp : Str → Str → Int) (good : Str → Prop) (older : Str → Str → Prop) : Prop where
  laws : CmpLaws cmp
  lt : ∀ {s t}, good s → good t → (cmp s t < 0 ↔ older s t)

theorem Agrees.le {cmp : Str → Str → Int} {good : Str → Prop} {older : Str → Str → Prop} (h : Agrees cmp good older) {s t : Str} (hs : good s)
    (ht : good t) : cmp s t ≤ 0 ↔ ¬ older t s := by
  rw [← h.lt ht hs, h.laws.flip]
  omega

theorem Agrees.inRange {cmp : Str → Str → Int} {good : Str → Prop} {older : Str → Str → Prop} (H : Agrees cmp good older)
    {evs : List RangeEvent} {x : Str} (hx : good x) (he : ∀ e ∈ evs, EventBy good e) : InRange cmp evs x ↔ IntervalBy older evs x := by
  unfold InRange IntervalBy
  refine exists_congr fun i => and_congr_right fun hi => and_congr_right fun hne => ?_
  have key : (∀ y, good y → (introLe cmp i.introduced y ↔ i.introduced = g!"0" ∨ ¬ older y i.introduced)) ∧
      (∀ y, good y → (introLt cmp i.introduced y ↔ i.introduced = g!"0" ∨ older i.introduced y)) := by
    unfold introLe introLt
    rcases (he i hi).1 with h | h | h
    · exact absurd h hne
    · simp [h]
    · exact ⟨fun y hy => by rw [H.le h hy], fun y hy => by rw [H.lt h hy]⟩
  refine and_congr (key.1 x hx) (and_congr ?_ ?_)
  · refine forall_congr' fun f => forall_congr' fun hf => forall_congr' fun hn => ?_
    rcases (he f hf).2.1 with h | h
    · exact absurd h hn
    · rw [key.2 _ h, H.lt hx h]
  · refine forall_congr' fun f => forall_congr' fun hf => forall_congr' fun hn => ?_
    rcases (he f hf).2.2 with h | h
    · exact absurd h hn
    · rw [key.1 _ h, H.le hx h]

theorem Agrees.wellFormed {cmp : Str → Str → Int} {good : Str → Prop} {older : Str → Str → Prop} (H : Agrees cmp good older)
    {evs : List RangeEvent} (he : ∀ e ∈ evs, EventBy good e) (hs : ∀ e ∈ evs, Single e) (ha : evs.Pairwise (ApartBy older)) :
    WellFormed cmp evs := by
  refine ⟨hs, List.Pairwise.imp_of_mem (fun {a b} ma mb h => ?_) ha⟩
  refine ⟨h.1, fun h1 h2 h3 => ?_⟩
  have mk : ∀ e ∈ evs, e.introduced ≠ g!"0" → good e.version := by
    intro e me hz
    have g := he e me
    cases hs e me with
    | introduced v hv =>
      rcases g.1 with h | h | h
      · exact absurd h hv
      · exact absurd h hz
      · simpa [RangeEvent.version, hv] using h
    | fixed v hv =>
      rcases g.2.1 with h | h
      · exact absurd h hv
      · simpa [RangeEvent.version, hv] using h
    | last v hv =>
      rcases g.2.2 with h | h
      · exact absurd h hv
      · simpa [RangeEvent.version, hv] using h
  have ga := mk a ma h1
  have gb := mk b mb h2
  rcases h.2 h1 h2 with h | h | h
  · rw [← H.lt ga gb] at h; omega
  · rw [← H.lt gb ga, H.laws.flip] at h; omega
  · exact h

end Osv
