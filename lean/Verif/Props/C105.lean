import Verif.Lemmas.ParseFloat
import Verif.Props.C101
import Verif.Spec.JsonText
/-!
# C105: the version of a pnpm-lock.yaml as a number

The paths of packages are read in one way if the version of the file is 9, and in another way otherwise. The version is a text that is
read as a floating point number.
-/
namespace Osv
open Str Spec

/-- Decimal numbers are read, with the value that they have. -/
theorem C105_read (s : Str) (neg : Bool) (m : Nat) (e : Int) : ParseFloat.read s = some ⟨neg, m, e⟩ ↔ FloatText s neg m e :=
  ⟨fun h => ParseFloat.read_inv h, ParseFloat.read_of⟩

theorem C105_unique (s : Str) (neg neg' : Bool) (m m' : Nat) (e e' : Int) (h : FloatText s neg m e) (h' : FloatText s neg' m' e') :
    neg = neg' ∧ m = m' ∧ e = e' := by
  have := (C105_read s neg m e).2 h
  rw [(C105_read s neg' m' e').2 h'] at this
  cases this
  exact ⟨rfl, rfl, rfl⟩

/-- A version is 9 exactly if it is not negative and 9 is the double next to it; a version that is too large is an error. -/
theorem C105_nine (other : Str → Option Bool) (s : Str) (neg : Bool) (m : Nat) (e : Int) (h : FloatText s neg m e) (p q : Nat)
    (hf : IsFraction m e p q) :
    (BelowInfinity p q → ∃ b, pnpmNineWith other s = some b ∧ (b = true ↔ neg = false ∧ NextToNine p q)) ∧
    (¬ BelowInfinity p q → pnpmNineWith other s = none) := by
  obtain ⟨rfl, rfl⟩ := hf
  have hr := (C105_read s neg m e).2 h
  have hfit := ParseFloat.fits_iff ⟨neg, m, e⟩
  unfold pnpmNineWith
  rw [hr]
  dsimp only
  constructor
  · intro hb
    rw [if_pos (hfit.2 hb)]
    refine ⟨_, rfl, ?_⟩
    rw [ParseFloat.next_iff _ _ (Nat.pow_pos (by decide))]
    unfold ParseFloat.Dec.isNine
    simp only [Bool.and_eq_true, Bool.not_eq_true', decide_eq_true_iff, and_assoc]
    rfl
  · intro hb
    rw [if_neg (fun h => hb (hfit.1 h))]

/-- With at most 15 digits behind the point there is no rounding: the version is 9 exactly if it is 9. -/
theorem C105_exact (p q : Nat) (h0 : 0 < q) (hq : q < 2 ^ 50) : NextToNine p q ↔ p = 9 * q := by
  rw [ParseFloat.next_iff p q h0]
  omega

/-- So which rule a pnpm-lock.yaml is read by is decided by the number in its text. -/
theorem C105_pnpm (other : YamlReader) (other' : Str → Option Bool) (text : Str) (n : YNode) (hd : YmlDoc text (some n)) (s : Str)
    (hs : ∀ t, YText n [g!"lockfileVersion"] t ↔ t = s) (neg : Bool) (m : Nat) (e : Int) (h : FloatText s neg m e) (p q : Nat)
    (hf : IsFraction m e p q) (hq : q < 2 ^ 50) :
    ((pnpmDecode (pnpmNineWith other') (yamlWith other) text).isSome ↔ PnpmShape n ∧ BelowInfinity p q) ∧
    ∀ l, pnpmDecode (pnpmNineWith other') (yamlWith other) text = some (some l) → (l.isNine = true ↔ neg = false ∧ p = 9 * q) := by
  have h0 : 0 < q := by rw [hf.2]; exact Nat.pow_pos (by decide)
  obtain ⟨h1, h2⟩ := C101_pnpm other (pnpmNineWith other') text n hd
  obtain ⟨h3, h4⟩ := C105_nine other' s neg m e h p q hf
  constructor
  · rw [h1]
    refine and_congr_right fun _ => ⟨fun ⟨v, hv, hn⟩ => ?_, fun hb => ?_⟩
    · obtain rfl := (hs v).1 hv
      refine Classical.byContradiction fun hb => ?_
      rw [h4 hb] at hn
      cases hn
    · obtain ⟨b, hb, -⟩ := h3 hb
      exact ⟨s, (hs s).2 rfl, by rw [hb]; rfl⟩
  · intro l hl
    obtain ⟨v, hv, hn⟩ := (h2 l hl).version
    obtain rfl := (hs v).1 hv
    by_cases hb : BelowInfinity p q
    · obtain ⟨b, hb, hiff⟩ := h3 hb
      rw [hb] at hn
      cases hn
      rw [hiff, C105_exact p q h0 hq]
    · rw [h4 hb] at hn
      cases hn

/-- The number of a bun.lock is an error exactly if it is too large. -/
theorem C105_bun (other : Str → Bool) (s : Str) (neg : Bool) (m : Nat) (e : Int) (h : FloatText s neg m e) (p q : Nat)
    (hf : IsFraction m e p q) : isFloatWith other s = true ↔ BelowInfinity p q := by
  obtain ⟨rfl, rfl⟩ := hf
  unfold isFloatWith
  rw [(C105_read s neg m e).2 h]
  exact ParseFloat.fits_iff ⟨neg, m, e⟩

/-- Numbers of JSON without an exponent are decimal numbers. -/
theorem C105_json (s : Str) (h : JNumber s) (h1 : 'e' ∉ s) (h2 : 'E' ∉ s) : ∃ neg m e, FloatText s neg m e ∧ e ≤ 0 ∧ m < 10 ^ s.length := by
  obtain ⟨sign, int, frac, exp, rfl, hs, hi, hfr, hx⟩ := h
  have hexp : exp = [] := by
    rcases hx with hx | ⟨c, sg, d, hc, -, -, rfl⟩
    · exact hx
    · rcases hc with rfl | rfl
      · exact absurd (List.mem_append_right _ List.mem_cons_self) h1
      · exact absurd (List.mem_append_right _ List.mem_cons_self) h2
  subst hexp
  obtain ⟨neg, hsign⟩ : ∃ neg, FloatSign sign neg := by
    rcases hs with rfl | rfl
    · exact ⟨_, .none⟩
    · exact ⟨_, .minus⟩
  have hint : int ≠ [] ∧ int.all isDigit = true := by
    rcases hi with rfl | ⟨hi, -⟩
    · decide
    · refine ⟨hi.1, List.all_eq_true.2 fun c hc => ?_⟩
      simpa [isDigit] using hi.2 c hc
  have lt : ∀ (ds : Str), ds.all isDigit = true → ParseFloat.value ds < 10 ^ ds.length := fun ds hd =>
    ModFile.numeral_lt (ParseFloat.numeral_value.2 ⟨hd, rfl⟩)
  rcases hfr with rfl | ⟨d, hd, rfl⟩
  · refine ⟨neg, ParseFloat.value int, 0, ?_, by decide, Nat.lt_of_lt_of_le (lt int hint.2) (Nat.pow_le_pow_right (by decide) ?_)⟩
    · have := FloatText.whole hsign hint.1 (ParseFloat.numeral_value.2 ⟨hint.2, rfl⟩) .none
      simpa using this
    · simp
  · have hd' : d.all isDigit = true := List.all_eq_true.2 fun c hc => by simpa [isDigit] using hd.2 c hc
    have hall : (int ++ d).all isDigit = true := by rw [List.all_append, hint.2, hd']; rfl
    refine ⟨neg, ParseFloat.value (int ++ d), 0 - d.length, ?_, by omega, Nat.lt_of_lt_of_le (lt _ hall) (Nat.pow_le_pow_right (by decide) ?_)⟩
    · have := FloatText.point hsign (by simp [hint.1]) (ParseFloat.numeral_value.2 ⟨hall, rfl⟩) .none
      simpa using this
    · simp only [List.length_append, List.length_cons]
      omega

/-- They are no error if they have at most 300 characters. -/
theorem C105_json_short (other : Str → Bool) (s : Str) (h : JNumber s) (h1 : 'e' ∉ s) (h2 : 'E' ∉ s) (hl : s.length ≤ 300) :
    isFloatWith other s = true := by
  obtain ⟨neg, m, e, ht, he, hm⟩ := C105_json s h h1 h2
  refine (C105_bun other s neg m e ht _ _ ⟨rfl, rfl⟩).2 ?_
  unfold BelowInfinity
  have e0 : e.toNat = 0 := by omega
  rw [e0, Nat.pow_zero, Nat.mul_one]
  have hp : 10 ^ s.length ≤ 10 ^ 300 := Nat.pow_le_pow_right (by decide) hl
  have hq : 0 < 10 ^ (-e).toNat := Nat.pow_pos (by decide)
  have hbig : 2 * 10 ^ 300 ≤ (2 ^ 53 - 1) * 2 ^ 971 + 2 ^ 1024 := by decide +kernel
  refine Nat.lt_of_lt_of_le (Nat.lt_of_lt_of_le ((Nat.mul_lt_mul_left (by decide)).2 (Nat.lt_of_lt_of_le hm hp)) hbig) ?_
  exact Nat.le_mul_of_pos_right _ hq

/-- A version with more digits can be taken for 9 without being 9. -/
theorem C105_rounded : FloatText g!"9.00000000000000000001" false 900000000000000000001 (-20) ∧
    pnpmNineWith (fun _ => none) g!"9.00000000000000000001" = some true :=
  ⟨(C105_read _ _ _ _).1 (by decide +kernel), by decide +kernel⟩

/-! The hypotheses can be met. -/

example : FloatText g!"9.0" false 90 (-1) ∧ IsFraction 90 (-1) 90 10 ∧ FloatText g!"5.4" false 54 (-1) ∧ FloatText g!"+.9E01" false 9 0 ∧
    FloatText g!"6" false 6 0 := by
  refine ⟨(C105_read _ _ _ _).1 (by decide +kernel), ⟨rfl, rfl⟩, (C105_read _ _ _ _).1 (by decide +kernel),
    (C105_read _ _ _ _).1 (by decide +kernel), (C105_read _ _ _ _).1 (by decide +kernel)⟩

example : pnpmNineWith (fun _ => none) g!"9.0" = some true ∧ pnpmNineWith (fun _ => none) g!"6.0" = some false ∧
    pnpmNineWith (fun _ => none) g!"-9" = some false ∧ pnpmNineWith (fun _ => none) g!"1e400" = none ∧
    pnpmNineWith (fun _ => none) g!"900e-2" = some true := by decide +kernel

end Osv
