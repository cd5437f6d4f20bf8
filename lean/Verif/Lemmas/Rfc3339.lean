import Verif.Go.Rfc3339
import Verif.Spec.Time
import Verif.Lemmas.Precedence
/-! # Times -/
namespace Osv.Rfc3339
open Str Osv.Spec Osv.Spec.ModText

theorem all_digits {s : Str} : s.all isDigit = true ↔ ∀ c ∈ s, Digit c := by simp [isDigit, Digit]

theorem number_iff {ds : Str} {lo hi n : Nat} : number ds lo hi = some n ↔ Numeral 10 ds n ∧ lo ≤ n ∧ n ≤ hi := by
  rw [Semantic.numeral_decimal, ← all_digits]
  have e : number ds lo hi = if ds.all isDigit = true ∧ lo ≤ Semantic.decimal ds ∧ Semantic.decimal ds ≤ hi then
    some (Semantic.decimal ds) else none := rfl
  rw [e]
  by_cases h : ds.all isDigit = true ∧ lo ≤ Semantic.decimal ds ∧ Semantic.decimal ds ≤ hi
  · rw [if_pos h]
    constructor
    · intro e; cases e; exact ⟨⟨h.1, rfl⟩, h.2⟩
    · rintro ⟨⟨_, e⟩, _⟩; rw [e]
  · rw [if_neg h]
    constructor
    · intro e; cases e
    · rintro ⟨⟨h1, rfl⟩, h2⟩; exact absurd ⟨h1, h2⟩ h

theorem leap_iff (y : Nat) : leap y = true ↔ LeapYear y := by
  unfold leap LeapYear
  simp only [Bool.and_eq_true, Bool.or_eq_true, decide_eq_true_eq]
  omega

theorem daysIn_iff {y m n : Nat} : MonthDays y m n ↔ (1 ≤ m ∧ m ≤ 12) ∧ n = daysIn y m := by
  constructor
  · intro h
    cases h with
    | long h => simp at h; rcases h with h | h | h | h | h | h | h <;> subst h <;> exact ⟨by omega, rfl⟩
    | short h => simp at h; rcases h with h | h | h | h <;> subst h <;> exact ⟨by omega, rfl⟩
    | leap h => exact ⟨by omega, by simp [daysIn, (leap_iff y).2 h]⟩
    | common h =>
      have : leap y = false := by
        cases e : leap y with
        | false => rfl
        | true => exact absurd ((leap_iff y).1 e) h
      exact ⟨by omega, by simp [daysIn, this]⟩
  · rintro ⟨⟨h1, h2⟩, rfl⟩
    by_cases hm : m = 2
    · subst hm
      by_cases hl : LeapYear y
      · have := MonthDays.leap hl
        rwa [show daysIn y 2 = 29 by simp [daysIn, (leap_iff y).2 hl]]
      · have : leap y = false := by
          cases e : leap y with
          | false => rfl
          | true => exact absurd ((leap_iff y).1 e) hl
        rw [show daysIn y 2 = 28 by simp [daysIn, this]]
        exact .common hl
    · by_cases hs : m = 4 ∨ m = 6 ∨ m = 9 ∨ m = 11
      · rw [show daysIn y m = 30 by simp [daysIn, hm, hs]]
        exact .short (by simp; omega)
      · rw [show daysIn y m = 31 by simp only [daysIn, if_neg hm, if_neg hs]]
        exact .long (by simp; omega)

theorem length_two {t : Str} (h : t.length = 2) : ∃ a b, t = [a, b] := by
  match t, h with
  | [a, b], _ => exact ⟨a, b, rfl⟩

theorem length_four {t : Str} (h : t.length = 4) : ∃ a b c d, t = [a, b, c, d] := by
  match t, h with
  | [a, b, c, d], _ => exact ⟨a, b, c, d, rfl⟩

theorem zone_iff {t : Str} {z : Int} : zone t = some z ↔ ZoneText t z := by
  constructor
  · intro h
    unfold zone at h
    split at h
    · cases h; exact .utc
    · rename_i c a b x y
      split at h
      · rename_i hc
        split at h
        · rename_i p q h1 h2
          have h1 := number_iff.1 h1
          have h2 := number_iff.1 h2
          rcases hc with rfl | rfl
          · simp at h
            subst h
            exact ZoneText.plus (hs := [a, b]) (ms := [x, y]) ⟨rfl, h1.1⟩ h1.2.2 ⟨rfl, h2.1⟩ h2.2.2
          · simp only [if_true] at h
            cases h
            exact ZoneText.minus (hs := [a, b]) (ms := [x, y]) ⟨rfl, h1.1⟩ h1.2.2 ⟨rfl, h2.1⟩ h2.2.2
        · cases h
      · cases h
    · cases h
  · intro h
    cases h with
    | utc => rfl
    | plus h1 h2 h3 h4 =>
      obtain ⟨a, b, rfl⟩ := length_two h1.1
      obtain ⟨x, y, rfl⟩ := length_two h3.1
      show zone ['+', a, b, ':', x, y] = _
      simp [zone, number_iff.2 ⟨h1.2, Nat.zero_le _, h2⟩, number_iff.2 ⟨h3.2, Nat.zero_le _, h4⟩]
    | minus h1 h2 h3 h4 =>
      obtain ⟨a, b, rfl⟩ := length_two h1.1
      obtain ⟨x, y, rfl⟩ := length_two h3.1
      show zone ['-', a, b, ':', x, y] = _
      simp [zone, number_iff.2 ⟨h1.2, Nat.zero_le _, h2⟩, number_iff.2 ⟨h3.2, Nat.zero_le _, h4⟩]

theorem zone_head {c : Str} {z : Int} (h : ZoneText c z) : ∃ x t, c = x :: t ∧ isDigit x = false ∧ x ≠ '.' := by
  cases h with
  | utc => exact ⟨_, _, rfl, by decide, by decide⟩
  | plus => exact ⟨_, _, rfl, by decide, by decide⟩
  | minus => exact ⟨_, _, rfl, by decide, by decide⟩

theorem takeWhile_digits {f t : Str} {x : Char} (h : ∀ c ∈ f, isDigit c = true) (hx : isDigit x = false) :
    (f ++ x :: t).takeWhile isDigit = f ∧ (f ++ x :: t).dropWhile isDigit = x :: t := by
  induction f with
  | nil => simp [hx]
  | cons a f ih =>
    have ha := h a (by simp)
    obtain ⟨h1, h2⟩ := ih fun c hc => h c (by simp [hc])
    simp [ha, h1, h2]

theorem fraction_of {b f c : Str} {z : Int} (h : FractionText b f) (hz : ZoneText c z) : fraction (b ++ c) = (f, c) := by
  obtain ⟨x, t, rfl, hx, hn⟩ := zone_head hz
  cases h with
  | none =>
    show fraction (x :: t) = _
    unfold fraction
    split
    · rename_i e; cases e; exact absurd rfl hn
    · rfl
  | some hne hd =>
    have hd' : ∀ c ∈ f, isDigit c = true := List.all_eq_true.1 (all_digits.2 hd)
    obtain ⟨h1, h2⟩ := takeWhile_digits (t := t) hd' hx
    show fraction ('.' :: (f ++ x :: t)) = _
    unfold fraction
    simp only [h1, h2, if_neg hne]

theorem fraction_inv (t : Str) : ∃ b, FractionText b (fraction t).1 ∧ t = b ++ (fraction t).2 := by
  unfold fraction
  split
  · rename_i t
    split
    · exact ⟨[], .none, rfl⟩
    · rename_i h
      refine ⟨'.' :: t.takeWhile isDigit, .some h ?_, ?_⟩
      · exact all_digits.1 (List.all_takeWhile ..)
      · simp [List.takeWhile_append_dropWhile]
  · exact ⟨[], .none, rfl⟩

/-- The moment of a time that has been read. -/
def Stamp.moment (t : Stamp) : Moment := ⟨t.year, t.month, t.day, t.hour, t.minute, t.second⟩

theorem read_text {s : Str} {t : Stamp} (h : read s = some t) : TimeText s t.moment t.fraction t.zone := by
  unfold read at h
  split at h
  · rename_i y1 y2 y3 y4 m1 m2 d1 d2 h1 h2 n1 n2 s1 s2 rest
    split at h
    · rename_i y m h n s z e1 e2 e3 e4 e5 e6
      obtain ⟨d, e7, rfl⟩ := Option.map_eq_some_iff.1 h
      have e1 := number_iff.1 e1
      have e2 := number_iff.1 e2
      have e3 := number_iff.1 e3
      have e4 := number_iff.1 e4
      have e5 := number_iff.1 e5
      have e7 := number_iff.1 e7
      obtain ⟨b, hb, e⟩ := fraction_inv rest
      refine ⟨[y1, y2, y3, y4, '-', m1, m2, '-', d1, d2, 'T', h1, h2, ':', n1, n2, ':', s1, s2], b, (fraction rest).2, ?_, hb,
        zone_iff.1 e6, ⟨e1.2.2, ⟨e7.2.1, daysIn y m, daysIn_iff.2 ⟨e2.2, rfl⟩, e7.2.2⟩, e3.2.2, e4.2.2, e5.2.2⟩, ?_⟩
      · exact ⟨[y1, y2, y3, y4], [m1, m2], [d1, d2], [h1, h2], [n1, n2], [s1, s2], ⟨rfl, e1.1⟩, ⟨rfl, e2.1⟩, ⟨rfl, e7.1⟩, ⟨rfl, e3.1⟩,
          ⟨rfl, e4.1⟩, ⟨rfl, e5.1⟩, rfl⟩
      · rw [← e]; rfl
    · cases h
  · cases h

theorem read_of {s : Str} {m : Moment} {f : Str} {z : Int} (h : TimeText s m f z) :
    read s = some ⟨m.year, m.month, m.day, m.hour, m.minute, m.second, f, z⟩ := by
  obtain ⟨a, b, c, ⟨ys, ms, ds, hs, ns, ss, p1, p2, p3, p4, p5, p6, rfl⟩, hb, hc, hv, rfl⟩ := h
  obtain ⟨y1, y2, y3, y4, rfl⟩ := length_four p1.1
  obtain ⟨m1, m2, rfl⟩ := length_two p2.1
  obtain ⟨d1, d2, rfl⟩ := length_two p3.1
  obtain ⟨h1, h2, rfl⟩ := length_two p4.1
  obtain ⟨n1, n2, rfl⟩ := length_two p5.1
  obtain ⟨s1, s2, rfl⟩ := length_two p6.1
  obtain ⟨k, hk, hd⟩ := hv.day.2
  obtain ⟨hm, rfl⟩ := daysIn_iff.1 hk
  show read (y1 :: y2 :: y3 :: y4 :: '-' :: m1 :: m2 :: '-' :: d1 :: d2 :: 'T' :: h1 :: h2 :: ':' :: n1 :: n2 :: ':' :: s1 :: s2 :: (b ++ c)) = _
  simp only [read, fraction_of hb hc, zone_iff.2 hc, number_iff.2 ⟨p1.2, Nat.zero_le _, hv.year⟩, number_iff.2 ⟨p2.2, hm⟩,
    number_iff.2 ⟨p4.2, Nat.zero_le _, hv.time.1⟩, number_iff.2 ⟨p5.2, Nat.zero_le _, hv.time.2.1⟩,
    number_iff.2 ⟨p6.2, Nat.zero_le _, hv.time.2.2⟩, number_iff.2 ⟨p3.2, hv.day.1, hd⟩, Option.map_some]

theorem digit_char {c : Char} (h : Digit c) : digit (c.toNat - 48) = c := by
  have h := Semantic.digit_nat.mp h
  have : 48 + (c.toNat - 48) % 10 = c.toNat := by omega
  rw [digit, this, Char.ofNat_toNat]

theorem digit_mod {m n : Nat} (h : m % 10 = n % 10) : digit m = digit n := by rw [digit, digit, h]

theorem digit_digit (n : Nat) : Digit (digit n) ∧ (digit n).toNat - 48 = n % 10 := by
  have h : n % 10 < 10 := Nat.mod_lt _ (by decide)
  unfold digit
  revert h
  generalize n % 10 = k
  revert k
  have : ∀ k < 10, ('0' ≤ Char.ofNat (48 + k) ∧ Char.ofNat (48 + k) ≤ '9') ∧ (Char.ofNat (48 + k)).toNat - 48 = k := by decide
  exact this

theorem numeral_two {a b : Char} {n : Nat} : Numeral 10 [a, b] n ↔ n ≤ 99 ∧ [a, b] = two n := by
  rw [Semantic.numeral_decimal]
  constructor
  · rintro ⟨h, rfl⟩
    have ha := h a (by simp)
    have hb := h b (by simp)
    have ha' := Semantic.digit_nat.mp ha
    have hb' := Semantic.digit_nat.mp hb
    have e : Semantic.decimal [a, b] = (a.toNat - 48) * 10 + (b.toNat - 48) := by simp [Semantic.decimal]
    rw [e]
    refine ⟨by omega, ?_⟩
    rw [two, digit_mod (n := a.toNat - 48) (by omega), digit_mod (m := _ * 10 + _) (n := b.toNat - 48) (by omega), digit_char ha, digit_char hb]
  · rintro ⟨hn, e⟩
    rw [e]
    refine ⟨?_, ?_⟩
    · intro c hc
      simp [two] at hc
      rcases hc with rfl | rfl <;> exact (digit_digit _).1
    · simp only [two, Semantic.decimal, List.foldl_cons, List.foldl_nil, (digit_digit _).2]
      omega

theorem padded_two {t : Str} {n : Nat} : Padded 2 t n ↔ n ≤ 99 ∧ t = two n := by
  constructor
  · rintro ⟨h1, h2⟩
    obtain ⟨a, b, rfl⟩ := length_two h1
    exact numeral_two.1 h2
  · rintro ⟨h1, rfl⟩
    exact ⟨rfl, numeral_two.2 ⟨h1, rfl⟩⟩

theorem padded_four {t : Str} {n : Nat} : Padded 4 t n ↔ n ≤ 9999 ∧ t = two (n / 100) ++ two (n % 100) := by
  constructor
  · rintro ⟨h1, h2⟩
    obtain ⟨a, b, c, d, rfl⟩ := length_four h1
    obtain ⟨h, rfl⟩ := Semantic.numeral_decimal.1 h2
    have h1 := (numeral_two (a := a) (b := b)).1 (Semantic.numeral_decimal.2 ⟨fun x hx => h x (by simp at hx ⊢; rcases hx with h | h <;> simp [h]), rfl⟩)
    have h2 := (numeral_two (a := c) (b := d)).1 (Semantic.numeral_decimal.2 ⟨fun x hx => h x (by simp at hx ⊢; rcases hx with h | h <;> simp [h]), rfl⟩)
    have e : Semantic.decimal [a, b, c, d] = 100 * Semantic.decimal [a, b] + Semantic.decimal [c, d] := by
      simp [Semantic.decimal]; omega
    have e1 : Semantic.decimal [a, b, c, d] / 100 = Semantic.decimal [a, b] := by omega
    have e2 : Semantic.decimal [a, b, c, d] % 100 = Semantic.decimal [c, d] := by omega
    rw [e1, e2, ← h1.2, ← h2.2]
    exact ⟨by omega, rfl⟩
  · rintro ⟨hn, rfl⟩
    refine ⟨rfl, Semantic.numeral_decimal.2 ⟨?_, ?_⟩⟩
    · intro c hc
      simp [two] at hc
      rcases hc with rfl | rfl | rfl | rfl <;> exact (digit_digit _).1
    · simp only [two, Semantic.decimal, List.cons_append, List.nil_append, List.foldl_cons, List.foldl_nil, (digit_digit _).2]
      omega

/-- Without zeros at the end. -/
def strip (l : Str) : Str := (l.reverse.dropWhile (· = '0')).reverse

/-- Nine digits. -/
def pad (f : Str) : Str := f.take 9 ++ List.replicate (9 - f.length) '0'

theorem strip_zeros (l : Str) (k : Nat) : strip (l ++ List.replicate k '0') = strip l := by
  unfold strip
  rw [List.reverse_append, List.reverse_replicate]
  congr 1
  induction k with
  | zero => rfl
  | succ k ih => simpa [List.replicate_succ] using ih

theorem strip_split (l : Str) : ∃ k, l = strip l ++ List.replicate k '0' := by
  refine ⟨(l.reverse.takeWhile (· = '0')).length, ?_⟩
  have h : l.reverse.takeWhile (· = '0') = List.replicate (l.reverse.takeWhile (· = '0')).length '0' := by
    refine List.eq_replicate_iff.2 ⟨rfl, fun c hc => ?_⟩
    have := List.all_eq_true.1 (List.all_takeWhile (p := (· = '0')) (l := l.reverse)) c hc
    simpa using this
  have e : l = (l.reverse.takeWhile (· = '0') ++ l.reverse.dropWhile (· = '0')).reverse := by
    rw [List.takeWhile_append_dropWhile, List.reverse_reverse]
  rw [List.reverse_append] at e
  rw [← List.reverse_replicate, ← h]
  exact e

theorem strip_last (l : Str) : (strip l).getLast? ≠ some '0' := by
  unfold strip
  rw [List.getLast?_reverse]
  intro h
  have := List.head?_dropWhile_not (· = '0') l.reverse
  rw [h] at this
  simp at this

theorem shortened_pad (f : Str) : shortened f = strip (pad f) := by
  rw [pad, strip_zeros]; rfl

theorem pad_length (f : Str) : (pad f).length = 9 := by
  simp [pad]; omega

theorem pad_short {f : Str} {k : Nat} (h : f.length + k = 9) : pad f = f ++ List.replicate k '0' := by
  rw [pad, List.take_of_length_le (by omega), show 9 - f.length = k by omega]

theorem pad_strip {l : Str} (h : l.length = 9) : pad (strip l) = l := by
  obtain ⟨k, e⟩ := strip_split l
  have hl := congrArg List.length e
  simp at hl
  rw [pad_short (k := k) (by omega)]
  exact e.symm

theorem nano_iff {f : Str} {n : Nat} : Nanoseconds f n ↔ Numeral 10 (pad f) n := by
  constructor
  · rintro ⟨zs, h1, h2, h3, h4⟩
    have : zs = List.replicate (9 - f.length) '0' := by
      refine List.eq_replicate_iff.2 ⟨?_, h1⟩
      by_cases h : f.length < 9
      · have := h2 h; omega
      · rw [h3 (by omega)]; simp; omega
    rwa [this] at h4
  · intro h
    refine ⟨List.replicate (9 - f.length) '0', fun c hc => (List.mem_replicate.1 hc).2, by simp; omega, fun h => ?_, h⟩
    rw [show 9 - f.length = 0 by omega]; rfl

theorem decimal_inj : ∀ {k : Nat} {s t : Str}, s.length = k → t.length = k → (∀ c ∈ s, Digit c) → (∀ c ∈ t, Digit c) →
    Semantic.decimal s = Semantic.decimal t → s = t := by
  intro k
  induction k with
  | zero => intro s t hs ht _ _ _; rw [List.length_eq_zero_iff.1 hs, List.length_eq_zero_iff.1 ht]
  | succ k ih =>
    intro s t hs ht ds dt e
    have snoc : ∀ u : Str, u.length = k + 1 → ∃ v c, u = v ++ [c] := fun u hu => by
      have hne : u ≠ [] := by intro e; simp [e] at hu
      exact ⟨u.dropLast, u.getLast hne, (List.dropLast_concat_getLast hne).symm⟩
    obtain ⟨a, x, rfl⟩ := snoc s hs
    obtain ⟨b, y, rfl⟩ := snoc t ht
    rw [Semantic.decimal_snoc, Semantic.decimal_snoc] at e
    have hx := Semantic.digit_nat.1 (ds x (by simp))
    have hy := Semantic.digit_nat.1 (dt y (by simp))
    have e1 : Semantic.decimal a = Semantic.decimal b := by omega
    have e2 : x.toNat = y.toNat := by omega
    have e3 : x = y := by rw [← Char.ofNat_toNat x, ← Char.ofNat_toNat y, e2]
    rw [ih (by simpa using hs) (by simpa using ht) (fun c hc => ds c (by simp [hc])) (fun c hc => dt c (by simp [hc])) e1, e3]

theorem numeral_inj {s t : Str} {n : Nat} (h : s.length = t.length) (hs : Numeral 10 s n) (ht : Numeral 10 t n) : s = t := by
  have hs := Semantic.numeral_decimal.1 hs
  have ht := Semantic.numeral_decimal.1 ht
  exact decimal_inj rfl h.symm hs.1 ht.1 (hs.2.trans ht.2.symm)

theorem shortened_digits {f : Str} (h : ∀ c ∈ f, Digit c) : ∀ c ∈ shortened f, Digit c := by
  intro c hc
  unfold shortened at hc
  have := List.mem_reverse.1 ((List.dropWhile_sublist _).subset (List.mem_reverse.1 hc))
  exact h c ((List.take_sublist ..).subset this)

theorem shortened_length (f : Str) : (shortened f).length ≤ 9 := by
  unfold shortened
  rw [List.length_reverse]
  exact Nat.le_trans (List.dropWhile_sublist _).length_le (by simp; omega)

theorem fraction_digits {b f : Str} (h : FractionText b f) : ∀ c ∈ f, Digit c := by
  cases h with
  | none => simp
  | some _ h => exact h

theorem printFraction_text {f : Str} (h : ∀ c ∈ f, Digit c) : FractionText (printFraction f) (shortened f) := by
  unfold printFraction
  split
  · rename_i e; rw [e]; exact .none
  · rename_i e; exact .some e (shortened_digits h)

theorem printZone_text {c : Str} {z : Int} (h : ZoneText c z) : ZoneText (printZone z) z := by
  have main : ∀ (h m : Nat), h ≤ 23 → m ≤ 59 → (60 * h + m) / 60 = h ∧ (60 * h + m) % 60 = m := by intros; omega
  unfold printZone
  split
  · rename_i e; subst e; exact .utc
  · rename_i hz
    cases h with
    | utc => exact absurd rfl hz
    | @plus hs ms h m h1 h2 h3 h4 =>
      have e : (60 * (h : Int) + m).natAbs = 60 * h + m := by omega
      rw [if_neg (by omega), e, (main h m h2 h4).1, (main h m h2 h4).2]
      exact .plus (padded_two.2 ⟨by omega, rfl⟩) h2 (padded_two.2 ⟨by omega, rfl⟩) h4
    | @minus hs ms h m h1 h2 h3 h4 =>
      have e : (-(60 * (h : Int) + m)).natAbs = 60 * h + m := by omega
      rw [if_pos (by omega), e, (main h m h2 h4).1, (main h m h2 h4).2]
      exact .minus (padded_two.2 ⟨by omega, rfl⟩) h2 (padded_two.2 ⟨by omega, rfl⟩) h4

theorem valid_month {m : Moment} (h : m.Valid) : m.month ≤ 12 ∧ m.day ≤ 31 := by
  obtain ⟨k, hk, hd⟩ := h.day.2
  obtain ⟨hm, e⟩ := daysIn_iff.1 hk
  refine ⟨hm.2, ?_⟩
  have : daysIn m.year m.month ≤ 31 := by
    unfold daysIn
    repeat' split
    all_goals omega
  omega

theorem print_text {s : Str} {m : Moment} {f : Str} {z : Int} (h : TimeText s m f z) :
    TimeText (print ⟨m.year, m.month, m.day, m.hour, m.minute, m.second, f, z⟩) m (shortened f) z := by
  obtain ⟨a, b, c, _, hb, hc, hv, _⟩ := h
  have hm := valid_month hv
  have ht := hv.time
  refine ⟨_, _, _, ⟨_, _, _, _, _, _, padded_four.2 ⟨hv.year, rfl⟩, padded_two.2 ⟨by omega, rfl⟩, padded_two.2 ⟨by omega, rfl⟩,
    padded_two.2 ⟨by omega, rfl⟩, padded_two.2 ⟨by omega, rfl⟩, padded_two.2 ⟨by omega, rfl⟩, rfl⟩,
    printFraction_text (fraction_digits hb), printZone_text hc, hv, ?_⟩
  simp [print]

end Osv.Rfc3339
