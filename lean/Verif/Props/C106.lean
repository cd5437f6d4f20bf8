import Verif.Lemmas.Rfc3339
import Verif.Props.C70
/-!
# C106: times keep their meaning

The times of an advisory are read and printed again. The printed text is the same time in the same zone, to the nanosecond; it does not
change when it is read once more, and so advisories that are printed can be read back.
-/
namespace Osv
open Str Spec Spec.ModText Json

/-- A text has one meaning. -/
theorem C106_unique {s : Str} {m m' : Moment} {f f' : Str} {z z' : Int} (h : TimeText s m f z) (h' : TimeText s m' f' z') :
    m = m' ∧ f = f' ∧ z = z' := by
  have := (Rfc3339.read_of h).symm.trans (Rfc3339.read_of h')
  obtain ⟨y, mo, d, h, n, s⟩ := m
  obtain ⟨y', mo', d', h', n', s'⟩ := m'
  simp at this
  obtain ⟨rfl, rfl, rfl, rfl, rfl, rfl, rfl, rfl⟩ := this
  exact ⟨rfl, rfl, rfl⟩

theorem canonWith_of (other : Str → Option Str) {s : Str} {m : Moment} {f : Str} {z : Int} (h : TimeText s m f z) :
    canonWith other s = some (Rfc3339.print ⟨m.year, m.month, m.day, m.hour, m.minute, m.second, f, z⟩) := by
  rw [canonWith, Rfc3339.read_of h]

theorem print_ends (t : Rfc3339.Stamp) (h : t.zone = 0) : ∃ u, Rfc3339.print t = u ++ g!"Z" := by
  have hz : Rfc3339.printZone t.zone = g!"Z" := by rw [h]; rfl
  refine ⟨Rfc3339.two (t.year / 100) ++ (Rfc3339.two (t.year % 100) ++ ('-' :: (Rfc3339.two t.month ++ ('-' :: (Rfc3339.two t.day ++ ('T' ::
    (Rfc3339.two t.hour ++ (':' :: (Rfc3339.two t.minute ++ (':' :: (Rfc3339.two t.second ++ Rfc3339.printFraction t.fraction))))))))))), ?_⟩
  unfold Rfc3339.print
  rw [hz]
  simp

/-- Times are printed in the canonical way, and mean what they did before. -/
theorem C106_time (other : Str → Option Str) {s : Str} {m : Moment} {f : Str} {z : Int} (h : TimeText s m f z) :
    ∃ t f', canonWith other s = some t ∧ TimeText t m f' z ∧ CanonicalTime t ∧ ∀ n, Nanoseconds f' n ↔ Nanoseconds f n := by
  have ht := Rfc3339.print_text h
  refine ⟨_, _, canonWith_of other h, ht, ⟨m, _, z, ht, Rfc3339.shortened_length f, Rfc3339.strip_last _, fun hz => print_ends _ hz⟩,
    fun n => ?_⟩
  rw [Rfc3339.nano_iff, Rfc3339.nano_iff, Rfc3339.shortened_pad, Rfc3339.pad_strip (Rfc3339.pad_length f)]

/-- Other texts are left to the library. -/
theorem C106_other (other : Str → Option Str) (s : Str) (h : ∀ m f z, ¬ TimeText s m f z) : canonWith other s = other s := by
  unfold canonWith
  split
  · rename_i t ht; exact absurd (Rfc3339.read_text ht) (h _ _ _)
  · rfl

/-- There is one canonical text for a time. -/
theorem C106_one {s s' : Str} {m : Moment} {f f' : Str} {z : Int} {n : Nat} (hs : CanonicalTime s) (hs' : CanonicalTime s')
    (h : TimeText s m f z) (h' : TimeText s' m f' z) (hn : Nanoseconds f n) (hn' : Nanoseconds f' n) : s = s' := by
  obtain ⟨m1, f1, z1, e, hl, hlast, hz⟩ := hs
  obtain ⟨rfl, rfl, rfl⟩ := C106_unique h e
  obtain ⟨m2, f2, z2, e', hl', hlast', hz'⟩ := hs'
  obtain ⟨rfl, rfl, rfl⟩ := C106_unique h' e'
  have hpad := Rfc3339.numeral_inj (by rw [Rfc3339.pad_length, Rfc3339.pad_length]) (Rfc3339.nano_iff.1 hn) (Rfc3339.nano_iff.1 hn')
  have strip_self : ∀ l : Str, l.getLast? ≠ some '0' → Rfc3339.strip l = l := by
    intro l hl
    obtain ⟨k, ek⟩ := Rfc3339.strip_split l
    cases k with
    | zero => simpa using ek.symm
    | succ k =>
      rw [List.replicate_succ', ← List.append_assoc] at ek
      rw [ek] at hl
      simp at hl
  have short : ∀ l : Str, l.length ≤ 9 → l.getLast? ≠ some '0' → Rfc3339.shortened l = l := by
    intro l h1 h2
    rw [Rfc3339.shortened, List.take_of_length_le h1]
    exact strip_self l h2
  have hf : f = f' := by
    rw [← short f hl hlast, ← short f' hl' hlast', Rfc3339.shortened_pad, Rfc3339.shortened_pad, hpad]
  subst hf
  obtain ⟨a, b, c, ⟨ys, ms, ds, hs, ns, ss, p1, p2, p3, p4, p5, p6, rfl⟩, hb, hc, hv, rfl⟩ := h
  obtain ⟨a', b', c', ⟨ys', ms', ds', hs', ns', ss', p1', p2', p3', p4', p5', p6', rfl⟩, hb', hc', hv', rfl⟩ := h'
  have e1 := Rfc3339.numeral_inj (p1.1.trans p1'.1.symm) p1.2 p1'.2
  have e2 := Rfc3339.numeral_inj (p2.1.trans p2'.1.symm) p2.2 p2'.2
  have e3 := Rfc3339.numeral_inj (p3.1.trans p3'.1.symm) p3.2 p3'.2
  have e4 := Rfc3339.numeral_inj (p4.1.trans p4'.1.symm) p4.2 p4'.2
  have e5 := Rfc3339.numeral_inj (p5.1.trans p5'.1.symm) p5.2 p5'.2
  have e6 := Rfc3339.numeral_inj (p6.1.trans p6'.1.symm) p6.2 p6'.2
  subst e1 e2 e3 e4 e5 e6
  have eb : b = b' := by
    cases hb with
    | none =>
      cases hb' with
      | none => rfl
      | some h => exact absurd rfl h
    | some h =>
      cases hb' with
      | none => exact absurd rfl h
      | some => rfl
  subst eb
  have last : ∀ {x u : Str} {d : Str}, (∃ t, x ++ (u ++ d) = t ++ g!"Z") → d ≠ [] → d.getLast? = some 'Z' := by
    rintro x u d ⟨t, e⟩ hd
    have := congrArg List.getLast? e
    rw [List.getLast?_append, List.getLast?_append] at this
    obtain ⟨y, d', rfl⟩ : ∃ d' y, d = d' ++ [y] := ⟨d.dropLast, d.getLast hd, (List.dropLast_concat_getLast hd).symm⟩
    simpa using this
  have notZ : ∀ {v : Str} {k : Nat} {q : Str}, Padded 2 v k → ('+' :: (q ++ ':' :: v)).getLast? ≠ some 'Z' ∧
      ('-' :: (q ++ ':' :: v)).getLast? ≠ some 'Z' := by
    intro v k q hv
    have hd := (Semantic.numeral_decimal.1 hv.2).1
    obtain ⟨x, y, rfl⟩ := Rfc3339.length_two hv.1
    have hy : Digit y := hd y (by simp)
    have : y ≠ 'Z' := by rintro rfl; exact absurd hy (by unfold Digit; decide)
    constructor <;> simp [List.getLast?_cons, this]
  have zero : ∀ {d : Str}, ZoneText d 0 → d.getLast? = some 'Z' → d = g!"Z" := by
    intro d hd hl
    generalize hz : (0 : Int) = z at hd
    cases hd with
    | utc => rfl
    | plus _ _ h3 _ => exact absurd hl (notZ h3).1
    | minus _ _ h3 _ => exact absurd hl (notZ h3).2
  have ne : ∀ {d : Str} {k : Int}, ZoneText d k → d ≠ [] := by
    intro d k hd
    obtain ⟨x, t, rfl, _⟩ := Rfc3339.zone_head hd
    simp
  have ec : c = c' := by
    by_cases h0 : z = 0
    · subst h0
      rw [zero hc (last (hz rfl) (ne hc)), zero hc' (last (hz' rfl) (ne hc'))]
    · have pr : ∀ {d : Str}, ZoneText d z → d = Rfc3339.printZone z := by
        intro d hd
        have main : ∀ (h m : Nat), h ≤ 23 → m ≤ 59 → (60 * h + m) / 60 = h ∧ (60 * h + m) % 60 = m := by intros; omega
        unfold Rfc3339.printZone
        rw [if_neg h0]
        cases hd with
        | utc => exact absurd rfl h0
        | @plus hs ms h m h1 h2 h3 h4 =>
          have e : (60 * (h : Int) + m).natAbs = 60 * h + m := by omega
          rw [if_neg (by omega), e, (main h m h2 h4).1, (main h m h2 h4).2, (Rfc3339.padded_two.1 h1).2, (Rfc3339.padded_two.1 h3).2]
        | @minus hs ms h m h1 h2 h3 h4 =>
          have e : (-(60 * (h : Int) + m)).natAbs = 60 * h + m := by omega
          rw [if_pos (by omega), e, (main h m h2 h4).1, (main h m h2 h4).2, (Rfc3339.padded_two.1 h1).2, (Rfc3339.padded_two.1 h3).2]
      rw [pr hc, pr hc']
  rw [ec]

theorem nano_exists {s : Str} {m : Moment} {f : Str} {z : Int} (h : TimeText s m f z) : ∃ n, Nanoseconds f n := by
  obtain ⟨_, b, _, _, hb, _⟩ := h
  refine ⟨_, Rfc3339.nano_iff.2 (Semantic.numeral_decimal.2 ⟨fun c hc => ?_, rfl⟩)⟩
  rcases List.mem_append.1 hc with hc | hc
  · exact Rfc3339.fraction_digits hb c ((List.take_sublist ..).subset hc)
  · rw [(List.mem_replicate.1 hc).2]; unfold Digit; decide

/-- Texts in the canonical way stay as they are, and only they do. -/
theorem C106_fixed (other : Str → Option Str) {s : Str} {m : Moment} {f : Str} {z : Int} (h : TimeText s m f z) :
    canonWith other s = some s ↔ CanonicalTime s := by
  obtain ⟨t, f', h1, h2, h3, h4⟩ := C106_time other h
  constructor
  · intro e
    rw [h1] at e
    cases e
    exact h3
  · intro hs
    obtain ⟨n, hn⟩ := nano_exists h
    rw [h1, C106_one h3 hs h2 h ((h4 n).2 hn) hn]

/-- Two texts are printed in the same way if and only if they are the same time in the same zone. -/
theorem C106_same (other : Str → Option Str) {s s' : Str} {m m' : Moment} {f f' : Str} {z z' : Int} {n n' : Nat} (h : TimeText s m f z)
    (h' : TimeText s' m' f' z') (hn : Nanoseconds f n) (hn' : Nanoseconds f' n') :
    canonWith other s = canonWith other s' ↔ m = m' ∧ z = z' ∧ n = n' := by
  obtain ⟨t, g, h1, h2, h3, h4⟩ := C106_time other h
  obtain ⟨t', g', h1', h2', h3', h4'⟩ := C106_time other h'
  rw [h1, h1']
  constructor
  · intro e
    cases e
    obtain ⟨rfl, rfl, rfl⟩ := C106_unique h2 h2'
    have a := (Semantic.numeral_decimal.1 (Rfc3339.nano_iff.1 ((h4 n).2 hn))).2
    have b := (Semantic.numeral_decimal.1 (Rfc3339.nano_iff.1 ((h4' n').2 hn'))).2
    exact ⟨rfl, rfl, a.symm.trans b⟩
  · rintro ⟨rfl, rfl, rfl⟩
    rw [C106_one h3 h3' h2 h2' ((h4 n).2 hn) ((h4' n).2 hn')]

/-- What the library prints for other texts is a time in the canonical way, too. -/
def PrintsTimes (other : Str → Option Str) : Prop := ∀ s t, other s = some t → CanonicalTime t

/-- Reading and printing a second time changes nothing. -/
theorem C106_again (other : Str → Option Str) (ho : PrintsTimes other) (s t : Str) (h : canonWith other s = some t) :
    CanonicalTime t ∧ canonWith other t = some t := by
  have hc : CanonicalTime t := by
    by_cases ht : ∃ m f z, TimeText s m f z
    · obtain ⟨m, f, z, ht⟩ := ht
      obtain ⟨t', _, h1, _, h3, _⟩ := C106_time other ht
      rw [h] at h1
      cases h1
      exact h3
    · rw [C106_other other s fun m f z hm => ht ⟨m, f, z, hm⟩] at h
      exact ho s t h
  refine ⟨hc, ?_⟩
  obtain ⟨m, f, z, ht, _⟩ := id hc
  exact (C106_fixed other ht).2 hc

theorem zeroTime_canonical : CanonicalTime zeroTime := by
  have h : Rfc3339.read zeroTime = some ⟨1, 1, 1, 0, 0, 0, [], 0⟩ := by decide +kernel
  have ht := Rfc3339.read_text h
  exact (C106_fixed (fun _ => none) ht).1 (by decide +kernel)

/-- An advisory that has been read is the same after it has been printed and read again. -/
theorem C106_roundtrip (other : Str → Option Str) (ho : PrintsTimes other) (text : Str) (m : JMembers) (o : OSV) (v : JVal)
    (hm : parse text = some (.obj m)) (hp : PlainAdvisory m) (h : unmarshalOSV (canonWith other) text = some o) (hv : EncOSV o v) :
    unmarshalOSV (canonWith other) (render v) = some o := by
  obtain ⟨_, _, _, h4, h5, h6, _⟩ := (C70_decoded (canonWith other) text m hm hp o).1 h
  have time : ∀ {g t : Str}, TimeField (canonWith other) m g t → canonWith other t = some t := by
    rintro g t (⟨s, _, e⟩ | ⟨rfl, _⟩)
    · exact (C106_again other ho s t e).2
    · obtain ⟨m, f, z, ht, _⟩ := zeroTime_canonical
      exact (C106_fixed other ht).2 zeroTime_canonical
  refine C70_roundtrip (canonWith other) o v hv (time h4) (time h5) fun t ht => ?_
  rcases h6 with ⟨s, t', _, e, e'⟩ | ⟨e, _⟩
  · rw [ht] at e'
    cases e'
    exact (C106_again other ho s t e).2
  · rw [ht] at e; cases e

/-- A time with zeros at the end of the fraction and `-00:00` for UTC. -/
theorem C106_sample : TimeText g!"2020-02-29T23:59:59.1200-00:00" ⟨2020, 2, 29, 23, 59, 59⟩ g!"1200" 0 ∧
    Nanoseconds g!"1200" 120000000 ∧ ¬ CanonicalTime g!"2020-02-29T23:59:59.1200-00:00" ∧ CanonicalTime g!"2020-02-29T23:59:59.12Z" := by
  have h1 : TimeText g!"2020-02-29T23:59:59.1200-00:00" ⟨2020, 2, 29, 23, 59, 59⟩ g!"1200" 0 :=
    Rfc3339.read_text (t := ⟨2020, 2, 29, 23, 59, 59, g!"1200", 0⟩) (by decide +kernel)
  have h2 : TimeText g!"2020-02-29T23:59:59.12Z" ⟨2020, 2, 29, 23, 59, 59⟩ g!"12" 0 :=
    Rfc3339.read_text (t := ⟨2020, 2, 29, 23, 59, 59, g!"12", 0⟩) (by decide +kernel)
  refine ⟨h1, Rfc3339.nano_iff.2 (Semantic.numeral_decimal.2 ⟨?_, by decide +kernel⟩), fun h => ?_, ?_⟩
  · exact Rfc3339.all_digits.1 (by decide +kernel)
  · exact absurd ((C106_fixed (fun _ => none) h1).2 h) (by decide +kernel)
  · exact (C106_fixed (fun _ => none) h2).1 (by decide +kernel)

/-- No day of the wrong month. -/
example : ∀ m f z, ¬ TimeText g!"2021-02-29T00:00:00Z" m f z := fun _ _ _ h =>
  absurd (Rfc3339.read_of h) (by rw [show Rfc3339.read g!"2021-02-29T00:00:00Z" = none by decide +kernel]; simp)

end Osv
