import Verif.Spec.Version
/-! Sample data used by the satisfiability examples and the counterexamples. -/
namespace Osv.Spec
open Osv

/-- A number written in decimal digits (other runes count as digit values of their code points). -/
def numOf (s : Str) : Nat := s.foldl (fun n c => 10 * n + (c.toNat - 48)) 0

/-- Sample version order: numeric. -/
def numCmp (a b : Str) : Int := (numOf a : Int) - (numOf b : Int)

theorem numCmp_laws : CmpLaws numCmp where
  refl a := by simp [numCmp]
  flip a b := by unfold numCmp; omega
  trans a b c := by unfold numCmp; omega

/-- The sample order for every ecosystem. -/
def numSem : Sem := fun _ => numCmp

def evIntro (v : Str) : RangeEvent := { introduced := v }
def evFixed (v : Str) : RangeEvent := { fixed := v }
def evLast (v : Str) : RangeEvent := { lastAffected := v }

instance (cmp : Str → Str → Int) (a b : RangeEvent) : Decidable (Separated cmp a b) := by
  unfold Separated; infer_instance

/-- Decidable version of `Single`. -/
def isSingle (e : RangeEvent) : Bool :=
  match e.introduced, e.fixed, e.lastAffected with
  | _ :: _, [], [] => true
  | [], _ :: _, [] => true
  | [], [], _ :: _ => true
  | _, _, _ => false

theorem single_of_isSingle {e : RangeEvent} (h : isSingle e = true) : Single e := by
  obtain ⟨i, f, l⟩ := e
  unfold isSingle at h
  split at h <;> simp_all
  · exact .introduced _ (by simp)
  · exact .fixed _ (by simp)
  · exact .last _ (by simp)

theorem wellFormed_of_check {cmp : Str → Str → Int} {evs : List RangeEvent}
    (h1 : evs.all isSingle = true) (h2 : evs.Pairwise (Separated cmp)) : WellFormed cmp evs :=
  ⟨fun e he => single_of_isSingle (List.all_eq_true.mp h1 e he), h2⟩

/-- introduced 0, fixed 3, introduced 5, last affected 7, given out of order -/
def sampleEvents : List RangeEvent :=
  [evLast g!"7", evIntro g!"5", evFixed g!"3", evIntro g!"0"]

theorem sampleEvents_wf : WellFormed numCmp sampleEvents :=
  wellFormed_of_check (by decide) (by decide)

end Osv.Spec
