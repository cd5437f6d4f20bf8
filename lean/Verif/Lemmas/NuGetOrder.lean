import Verif.Lemmas.SemverLong
import Verif.Lemmas.PypiOrder
import Verif.Spec.NuGetOrder
/-! # The comparison of NuGet versions -/
namespace Osv.Semantic
open Str Spec Spec.ModText
open Spec.Precedence (Decimal NumbersText Ending IdBefore Before)
open Spec.NuGetOrder

theorem lower_mark {c d : Char} (hd : d = '+' ∨ d = '-') (h : c.toLower = d) : c = d := by
  unfold Char.toLower at h
  split at h
  · rename_i hu
    exfalso
    have h1 := congrArg Char.val h
    have h2 := hu.1; have h3 := hu.2
    simp [UInt32.le_iff_toNat_le] at h2 h3
    rcases hd with rfl | rfl
    · simp at h1
      have := congrArg UInt32.toNat h1
      simp at this
      omega
    · simp at h1
      have := congrArg UInt32.toNat h1
      simp at this
      omega
  · exact h

/-- What ends the numbers. -/
def Stop (t : Str) : Prop := t = [] ∨ ∃ c r, t = c :: r ∧ (c = '+' ∨ c = '-')

theorem ending_stop {t : Str} {pre : List Str} (h : Ending (t.map Char.toLower) pre) : Stop t := by
  cases t with
  | nil => exact .inl rfl
  | cons c r =>
    refine .inr ⟨c, r, rfl, ?_⟩
    rw [List.map_cons] at h
    generalize e : c.toLower :: r.map Char.toLower = u at h
    cases h with
    | none => exact absurd e (by simp)
    | build => exact .inl (lower_mark (.inl rfl) (List.cons.inj e).1)
    | pre => exact .inr (lower_mark (.inr rfl) (List.cons.inj e).1)
    | preBuild => exact .inr (lower_mark (.inr rfl) (List.cons.inj e).1)

theorem scan_stop {d t : Str} (hd : d ≠ []) (h : Stop t) (comps : List Nat) (e : Bool) : scan comps d e t = ⟨comps ++ [decimal d], t⟩ := by
  rcases h with rfl | ⟨c, r, rfl, rfl | rfl⟩
  · simp [scan, hd]
  · have : isDigit '+' = false := by decide
    simp [scan, hd, this]
  · have : isDigit '-' = false := by decide
    simp [scan, hd, this]

theorem scan_numbers_stop {s t : Str} {ns : List Nat} (h : NumbersText s ns) (ht : Stop t) :
    ∀ comps e, scan comps [] e (s ++ t) = ⟨comps ++ ns, t⟩ := by
  induction h with
  | @one d n hd =>
    intro comps e
    obtain ⟨h1, h2⟩ := numeral_decimal.mp hd.2
    rw [scan_digits d _ h1, List.nil_append, scan_stop hd.1 ht, h2]
  | @dot d r n ns hd _ ih =>
    intro comps e
    obtain ⟨h1, h2⟩ := numeral_decimal.mp hd.2
    rw [List.append_assoc, scan_digits d _ h1, List.nil_append, List.cons_append, scan_dot hd.1, ih, h2]
    simp

theorem numbers_trim_append {s : Str} {ns : List Nat} (h : NumbersText s ns) (t : Str) : trimPrefix (s ++ t) g!"v" = s ++ t := by
  have : ∀ {d : Str} {n : Nat} (r : Str), Decimal d n → trimPrefix (d ++ r) g!"v" = d ++ r := by
    intro d n r hd
    obtain ⟨c, t, rfl⟩ := List.exists_cons_of_ne_nil hd.1
    exact trim_digit ((numeral_decimal.mp hd.2).1 c (by simp))
  cases h with
  | one hd => exact this _ hd
  | dot hd _ => rw [List.append_assoc]; exact this _ hd

theorem nuget_parse {s : Str} {v : Version} (h : Written s v) :
    ∃ t, Ending (toLower t) v.pre ∧ parseLike 4 s = ⟨v.numbers, t⟩ := by
  cases h with
  | @plain s t ns pre h1 h2 h3 =>
    refine ⟨t, h3, ?_⟩
    unfold parseLike
    rw [numbers_trim_append h1, scan_numbers_stop h1 (ending_stop h3)]
    simp [h2]
  | @v s t ns pre h1 h2 h3 =>
    refine ⟨t, h3, ?_⟩
    have e : trimPrefix ('v' :: (s ++ t)) g!"v" = s ++ t := by simp [trimPrefix, hasPrefix]
    unfold parseLike
    rw [e, scan_numbers_stop h1 (ending_stop h3)]
    simp [h2]

theorem build_spec {s t : Str} {p q : List Str} (es : Ending s p) (et : Ending t q)
    (hp : ∀ i ∈ p, ∀ t, i = '-' :: t → t = [] ∨ ∃ c ∈ t, ¬ Digit c) (hq : ∀ i ∈ q, ∀ t, i = '-' :: t → t = [] ∨ ∃ c ∈ t, ¬ Digit c) :
    (cmpBuild s t < 0 ↔ p ≠ [] ∧ (q = [] ∨ Before IdBefore p q)) ∧ (cmpBuild s t = 0 ↔ p = q) := by
  have ⟨vn, vs, vi⟩ := ending_prerelease es
  have ⟨wn, ws, wi⟩ := ending_prerelease et
  have hvp : ∀ i ∈ p, PlainId i := fun i hi => ⟨vi i hi, hp i hi⟩
  have hwp : ∀ i ∈ q, PlainId i := fun i hi => ⟨wi i hi, hq i hi⟩
  unfold cmpBuild
  dsimp only
  by_cases h1 : p = []
  · by_cases h2 : q = []
    · rw [vn h1, wn h2, h1, h2]
      exact ⟨by simp; decide, by simp; decide⟩
    · rw [if_pos ⟨vn h1, (ws h2).1⟩]
      simp [h1]
      exact h2
  · by_cases h2 : q = []
    · rw [if_neg (fun h => (vs h1).1 h.1), if_pos ⟨(vs h1).1, wn h2⟩]
      simp [h1, h2]
    · rw [if_neg (fun h => (vs h1).1 h.1), if_neg (fun h => (ws h2).1 h.2), (vs h1).2, (ws h2).2]
      have := cmpIdents_before hvp hwp
      simp only [h1, h2, ne_eq, not_false_eq_true, true_and, false_or]
      exact this

theorem nuget_spec {s t : Str} {v w : Version} (hs : Written s v) (ht : Written t w) (hv : Plain v) (hw : Plain w) :
    (nuget s t < 0 ↔ Precedes v w) ∧ (nuget s t = 0 ↔ Same v w) := by
  obtain ⟨s', es, ps⟩ := nuget_parse hs
  obtain ⟨t', et, pt⟩ := nuget_parse ht
  have build := build_spec es et hv hw
  have h3 := Pypi.release_spec v.numbers w.numbers
  unfold nuget
  rw [ps, pt]
  dsimp only
  have prec : Precedes v w ↔ Pep440.ReleaseBefore v.numbers w.numbers ∨
      (Pep440.SameRelease v.numbers w.numbers ∧ v.pre ≠ [] ∧ (w.pre = [] ∨ Before IdBefore v.pre w.pre)) := by
    constructor
    · intro h
      cases h with
      | numbers h => exact .inl h
      | release h1 h2 h3 => exact .inr ⟨h1, h2, .inl h3⟩
      | pre h1 h2 h3 => exact .inr ⟨h1, h2, .inr h3⟩
    · rintro (h | ⟨h1, h2, h3 | h3⟩)
      · exact .numbers h
      · exact .release h1 h2 h3
      · exact .pre h1 h2 h3
  rw [prec]
  unfold Same
  generalize cmpComponents v.numbers w.numbers = d at h3
  by_cases hd : d = 0
  · have e := h3.2.mp hd
    have n : ¬ Pep440.ReleaseBefore v.numbers w.numbers := fun h => absurd (h3.1.mpr h) (by omega)
    rw [if_neg (by simpa using hd), build.1, build.2]
    simp [n, e]
  · have e : ¬ Pep440.SameRelease v.numbers w.numbers := fun h => hd (h3.2.mpr h)
    rw [if_pos hd, h3.1]
    exact ⟨⟨.inl, fun h => h.elim id fun h => absurd h.1 e⟩, fun h => absurd h hd, fun h => absurd h.1 e⟩

end Osv.Semantic
