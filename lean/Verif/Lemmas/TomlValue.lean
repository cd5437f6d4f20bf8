import Verif.Lemmas.TomlLex
import Verif.Lemmas.TomlTree
/-!
# Values of TOML texts, and statements
-/
namespace Osv.TomlText
open Osv Spec

/-! ### Integers -/

theorem hex_cases {P : Char → Nat → Bool} {base : Nat} (hb : base ≤ 16)
    (h : (List.range base).all (fun i => P ((g!"0123456789abcdef").getD i 'x') i && P ((g!"0123456789ABCDEF").getD i 'x') i) = true)
    {c : Char} {v : Nat} (hc : HexDigit c v) (hv : v < base) : P c v = true := by
  have := List.all_eq_true.1 h v (List.mem_range.2 hv)
  rw [Bool.and_eq_true] at this
  rcases hc with hc | hc
  · have h2 : (g!"0123456789abcdef").getD v 'x' = c := by rw [List.getD_eq_getElem?_getD, hc]; rfl
    rw [← h2]; exact this.1
  · have h2 : (g!"0123456789ABCDEF").getD v 'x' = c := by rw [List.getD_eq_getElem?_getD, hc]; rfl
    rw [← h2]; exact this.2

theorem digit_isDigit {c : Char} (h : TomlDigit 10 c) : c.isDigit = true := by
  obtain ⟨v, hc, hv⟩ := h
  exact hex_cases (P := fun c _ => c.isDigit) (by decide) (by decide) hc hv

theorem digit_bare {c : Char} {base : Nat} (hb : base ≤ 16) (h : TomlDigit base c) : isBareValue c = true ∧ c ≠ '_' := by
  obtain ⟨v, hc, hv⟩ := h
  have := hex_cases (P := fun c _ => isBareValue c && c != '_') (base := 16) (by decide) (by decide) hc (by omega)
  simpa using this

theorem digits_facts {base : Nat} (hb : base ≤ 16) {ds t : Str} (h : TomlDigits (TomlDigit base) ds t) {digit : Char → Bool}
    (hd : ∀ c, TomlDigit base c → digit c = true) :
    underscored digit t = true ∧ t.filter (· != '_') = ds ∧ (∀ c ∈ t, isBareValue c = true) ∧
      ∃ c t', t = c :: t' ∧ TomlDigit base c := by
  induction h with
  | @one c hc =>
    obtain ⟨h1, h2⟩ := digit_bare hb hc
    exact ⟨by simp [underscored, hd c hc], by simp [h2], by simpa using h1, c, [], rfl, hc⟩
  | @next c ds t hc _ ih =>
    obtain ⟨h1, h2⟩ := digit_bare hb hc
    obtain ⟨i1, i2, i3, d, t', rfl, hd'⟩ := ih
    have hd2 := (digit_bare hb hd').2
    refine ⟨?_, ?_, ?_, c, _, rfl, hc⟩
    · unfold underscored
      split
      · simp_all
      · simp_all
      · rename_i h; injection h with _ h; injection h with h _; exact absurd h hd2
      · rename_i h; injection h with h3 h4; subst h3 h4; rw [hd c hc, i1]; rfl
    · rw [List.filter_cons_of_pos (by simpa using h2), i2]
    · intro x hx
      rcases List.mem_cons.1 hx with rfl | hx
      · exact h1
      · exact i3 x hx
  | @under c ds t hc _ ih =>
    obtain ⟨h1, h2⟩ := digit_bare hb hc
    obtain ⟨i1, i2, i3, _⟩ := ih
    refine ⟨?_, ?_, ?_, c, _, rfl, hc⟩
    · rw [underscored, hd c hc, i1]; rfl
    · simp [h2, i2]
    · intro x hx
      rcases List.mem_cons.1 hx with rfl | hx
      · exact h1
      · rcases List.mem_cons.1 hx with rfl | hx
        · decide
        · exact i3 x hx

theorem foldl_each {base : Nat} {ds : Str} {vs : List Nat} (h : Each HexDigit ds vs) (acc : Nat) :
    ds.foldl (fun n c => n * base + (hexDigit c).getD 0) acc = vs.foldl (fun a d => a * base + d) acc := by
  induction h generalizing acc with
  | nil => rfl
  | cons hd _ ih => simp only [List.foldl_cons, hexDigit_toml hd, Option.getD_some]; exact ih _

theorem digitsValue_of {base : Nat} {ds t : Str} {n : Nat} (hf : t.filter (· != '_') = ds) (hn : TomlNumber base ds n) :
    digitsValue base t = n := by
  obtain ⟨vs, hv, rfl⟩ := hn
  rw [digitsValue, hf, foldl_each hv]

theorem decimal_facts {t : Str} {n : Nat} (h : TomlDecimal t n) :
    unsigned t = some n ∧ (∀ c ∈ t, isBareValue c = true) ∧ ∃ c t', t = c :: t' ∧ c.isDigit = true ∧ (c = '0' → t' = []) := by
  rcases h with ⟨rfl, rfl⟩ | ⟨ds, hd, hh, hn⟩
  · exact ⟨by decide, by decide, '0', [], rfl, by decide, fun _ => rfl⟩
  · obtain ⟨h1, h2, h3, c, t', rfl, hc⟩ := digits_facts (by decide) hd (fun c hc => digit_isDigit hc)
    refine ⟨?_, h3, c, t', rfl, digit_isDigit hc, fun h => absurd (by rw [h]; rfl) hh⟩
    rw [unsigned, if_pos (.inr ⟨hh, h1⟩), digitsValue_of h2 hn]

theorem isDigit_ne {c : Char} (h : c.isDigit = true) : c ≠ '+' ∧ c ≠ '-' := by
  constructor <;> (rintro rfl; exact absurd h (by decide))

/-- A text without sign and without prefix of a base. -/
theorem integer_plain {c : Char} {t : Str} (h1 : c ≠ '+' ∧ c ≠ '-')
    (h2 : c = '0' → t.head? ≠ some 'x' ∧ t.head? ≠ some 'o' ∧ t.head? ≠ some 'b') :
    integer (c :: t) = (unsigned (c :: t)).map Int.ofNat := by
  unfold integer
  split <;> first
    | (rename_i h; injection h with h3 h4; subst h3 h4; simp at h2; done)
    | (rename_i h; injection h with h3 h4; subst h3 h4; simp at h1; done)
    | rfl

theorem integer_of {i : Int} {t : Str} (h : TomlInt i t) :
    bare t = some (.int i) ∧ (∀ c ∈ t, isBareValue c = true) ∧ t ≠ [] := by
  obtain ⟨h, h1, h2⟩ := h
  have key : integer t = some i ∧ (∀ c ∈ t, isBareValue c = true) ∧ t ≠ [] := by
    rcases h with ⟨n, hd, rfl⟩ | ⟨n, u, rfl, hd, rfl⟩ | ⟨n, u, rfl, hd, rfl⟩ | ⟨n, u, ds, p, hp, rfl, hd, hn, rfl⟩
    · obtain ⟨hu, hb, c, t', rfl, hc, h0⟩ := decimal_facts hd
      refine ⟨?_, hb, by simp⟩
      rw [integer_plain (isDigit_ne hc) (fun h => by simp [h0 h]), hu]; rfl
    · obtain ⟨hu, hb, _⟩ := decimal_facts hd
      refine ⟨?_, ?_, by simp⟩
      · rw [integer, hu]; rfl
      · intro c hc
        rcases List.mem_cons.1 hc with rfl | hc
        · decide
        · exact hb c hc
    · obtain ⟨hu, hb, _⟩ := decimal_facts hd
      refine ⟨?_, ?_, by simp⟩
      · rw [integer, hu]; rfl
      · intro c hc
        rcases List.mem_cons.1 hc with rfl | hc
        · decide
        · exact hb c hc
    · have hbare : ∀ q : Char, isBareValue q = true → (∀ c ∈ u, isBareValue c = true) → ∀ c ∈ '0' :: q :: u, isBareValue c = true := by
        intro q hq hu c hc
        rcases List.mem_cons.1 hc with rfl | hc
        · decide
        · rcases List.mem_cons.1 hc with rfl | hc
          · exact hq
          · exact hu c hc
      simp only [List.mem_cons, List.not_mem_nil, or_false] at hp
      rcases hp with rfl | rfl | rfl
      · obtain ⟨f1, f2, f3, _⟩ := digits_facts (by decide) hd (digit := fun c => (hexDigit c).isSome)
          (fun c ⟨v, hv, _⟩ => by rw [hexDigit_toml hv]; rfl)
        refine ⟨?_, hbare _ (by decide) f3, by simp⟩
        rw [integer, f1, if_pos rfl, digitsValue_of f2 hn]; rfl
      · obtain ⟨f1, f2, f3, _⟩ := digits_facts (by decide) hd (digit := fun c => '0' ≤ c ∧ c ≤ '7')
          (fun c ⟨v, hv, hl⟩ => hex_cases (P := fun c _ => decide ('0' ≤ c ∧ c ≤ '7')) (by decide) (by decide) hv hl)
        refine ⟨?_, hbare _ (by decide) f3, by simp⟩
        rw [integer, f1, if_pos rfl, digitsValue_of f2 hn]; rfl
      · obtain ⟨f1, f2, f3, _⟩ := digits_facts (by decide) hd (digit := fun c => c = '0' ∨ c = '1')
          (fun c ⟨v, hv, hl⟩ => hex_cases (P := fun c _ => decide (c = '0' ∨ c = '1')) (by decide) (by decide) hv hl)
        refine ⟨?_, hbare _ (by decide) f3, by simp⟩
        rw [integer, f1, if_pos rfl, digitsValue_of f2 hn]; rfl
  refine ⟨?_, key.2⟩
  rw [bare, key.1]
  exact if_pos ⟨by simpa using h1, by simpa using h2⟩

/-! ### Other values without an inside -/

theorem underscored_all {digit : Char → Bool} {t : Str} (h : underscored digit t = true) : ∀ c ∈ t, digit c = true ∨ c = '_' := by
  fun_induction underscored digit t with
  | case1 => simp
  | case2 c => intro x hx; simp at hx; exact .inl (hx ▸ h)
  | case3 c s ih =>
    rw [Bool.and_eq_true] at h
    intro x hx
    rcases List.mem_cons.1 hx with rfl | hx
    · exact .inl h.1
    · rcases List.mem_cons.1 hx with rfl | hx
      · exact .inr rfl
      · exact ih h.2 x hx
  | case4 c s _ _ ih =>
    rw [Bool.and_eq_true] at h
    intro x hx
    rcases List.mem_cons.1 hx with rfl | hx
    · exact .inl h.1
    · exact ih h.2 x hx

theorem unsigned_none {t : Str} {c : Char} (hc : c ∈ t) (h1 : c.isDigit = false) (h2 : c ≠ '_') : unsigned t = none := by
  rw [unsigned, if_neg]
  rintro (rfl | ⟨_, h⟩)
  · simp at hc; subst hc; exact absurd h1 (by decide)
  · rcases underscored_all h c hc with h | h
    · rw [h] at h1; cases h1
    · exact h2 h

theorem integer_none {c d e : Char} {t : Str} (hc : c.isDigit = true) (hd : d ≠ 'x' ∧ d ≠ 'o' ∧ d ≠ 'b') (he : e ∈ c :: d :: t)
    (h1 : e.isDigit = false) (h2 : e ≠ '_') : integer (c :: d :: t) = none := by
  rw [integer_plain (isDigit_ne hc) (fun _ => by simpa using hd), unsigned_none he h1 h2]; rfl

theorem number_none {s a b : Str} {n : Nat} {c : Char} (hs : TomlSign s) (ha : TomlDecimal a n) (hc : c = '.' ∨ c = 'e' ∨ c = 'E') :
    integer (s ++ (a ++ c :: b)) = none := by
  have hc1 : c.isDigit = false ∧ c ≠ '_' ∧ c ≠ 'x' ∧ c ≠ 'o' ∧ c ≠ 'b' := by rcases hc with rfl | rfl | rfl <;> decide
  rcases hs with rfl | rfl | rfl
  · obtain ⟨_, _, d, a', rfl, hd, h0⟩ := decimal_facts ha
    rw [List.nil_append, List.cons_append]
    have hm : c ∈ d :: (a' ++ c :: b) := by simp
    rw [integer_plain (isDigit_ne hd) (fun h => by simp [h0 h, hc1.2.2]), unsigned_none hm hc1.1 hc1.2.1]; rfl
  · show integer ('+' :: (a ++ c :: b)) = none
    rw [integer, unsigned_none (c := c) (by simp) hc1.1 hc1.2.1]; rfl
  · show integer ('-' :: (a ++ c :: b)) = none
    rw [integer, unsigned_none (c := c) (by simp) hc1.1 hc1.2.1]; rfl

theorem sign_bare {s : Str} (h : TomlSign s) : ∀ c ∈ s, isBareValue c = true := by
  rcases h with rfl | rfl | rfl <;> simp <;> decide

theorem mem_bare_append {a b : Str} (ha : ∀ c ∈ a, isBareValue c = true) (hb : ∀ c ∈ b, isBareValue c = true) :
    ∀ c ∈ a ++ b, isBareValue c = true := by
  intro c hc
  rcases List.mem_append.1 hc with h | h
  · exact ha c h
  · exact hb c h

theorem mem_bare_cons {a : Char} {b : Str} (ha : isBareValue a = true) (hb : ∀ c ∈ b, isBareValue c = true) :
    ∀ c ∈ a :: b, isBareValue c = true := by
  intro c hc
  rcases List.mem_cons.1 hc with rfl | h
  · exact ha
  · exact hb c h

theorem fraction_facts {t : Str} (h : TomlFraction t) : (∃ u, t = '.' :: u) ∧ ∀ c ∈ t, isBareValue c = true := by
  obtain ⟨ds, u, hd, rfl⟩ := h
  exact ⟨⟨u, rfl⟩, mem_bare_cons (by decide) (digits_facts (by decide) hd (fun c hc => digit_isDigit hc)).2.2.1⟩

theorem exponent_facts {t : Str} (h : TomlExponent t) : (∃ e u, (e = 'e' ∨ e = 'E') ∧ t = e :: u) ∧ ∀ c ∈ t, isBareValue c = true := by
  obtain ⟨e, s, ds, u, he, hs, hd, rfl⟩ := h
  refine ⟨⟨e, _, he, rfl⟩, mem_bare_cons ?_ (mem_bare_append (sign_bare hs)
    (digits_facts (by decide) hd (fun c hc => digit_isDigit hc)).2.2.1)⟩
  rcases he with rfl | rfl <;> decide

/-- A value without an inside that is no integer. -/
def Plain (t : Str) : Prop := integer t = none ∧ (∀ c ∈ t, isBareValue c = true) ∧ t ≠ []

theorem float_plain {t : Str} (h : TomlFloat t) : Plain t := by
  obtain ⟨s, u, hs, rfl, h⟩ := h
  rcases h with rfl | rfl | ⟨a, b, ⟨n, ha⟩, rfl, h⟩
  · rcases hs with rfl | rfl | rfl <;> exact ⟨by decide, by decide, by decide⟩
  · rcases hs with rfl | rfl | rfl <;> exact ⟨by decide, by decide, by decide⟩
  · have hb : (∃ c b', (c = '.' ∨ c = 'e' ∨ c = 'E') ∧ b = c :: b') ∧ ∀ c ∈ b, isBareValue c = true := by
      rcases h with h | h | ⟨f, e, hf, he, rfl⟩
      · obtain ⟨⟨u, rfl⟩, hb⟩ := fraction_facts h; exact ⟨⟨_, _, .inl rfl, rfl⟩, hb⟩
      · obtain ⟨⟨e, u, he, rfl⟩, hb⟩ := exponent_facts h; exact ⟨⟨_, _, .inr he, rfl⟩, hb⟩
      · obtain ⟨⟨u, rfl⟩, hb⟩ := fraction_facts hf
        exact ⟨⟨_, _, .inl rfl, rfl⟩, mem_bare_append hb (exponent_facts he).2⟩
    obtain ⟨⟨c, b', hc, rfl⟩, hb⟩ := hb
    exact ⟨number_none hs ha hc, mem_bare_append (sign_bare hs) (mem_bare_append (decimal_facts ha).2.1 hb), by simp⟩

theorem padded_bare {w : Nat} {t : Str} {n : Nat} (h : TomlPadded w t n) : ∀ c ∈ t, isBareValue c = true :=
  fun c hc => (digit_bare (by decide) (h.2.1 c hc)).1

/-- Two digits at the beginning. -/
theorem padded_two {w : Nat} {t : Str} {n : Nat} (hw : 2 ≤ w) (h : TomlPadded w t n) :
    ∃ c d t', t = c :: d :: t' ∧ c.isDigit = true ∧ d ≠ 'x' ∧ d ≠ 'o' ∧ d ≠ 'b' := by
  obtain ⟨hl, hd, _⟩ := h
  rcases t with _ | ⟨c, _ | ⟨d, t'⟩⟩
  · simp at hl; omega
  · simp at hl; omega
  · have h2 := digit_isDigit (hd d (by simp))
    refine ⟨c, d, t', rfl, digit_isDigit (hd c (by simp)), ?_, ?_, ?_⟩ <;> (rintro rfl; exact absurd h2 (by decide))

theorem padded_none {w : Nat} {t u : Str} {n : Nat} {e : Char} (hw : 2 ≤ w) (h : TomlPadded w t n) (he : e = '-' ∨ e = ':') :
    integer (t ++ e :: u) = none := by
  obtain ⟨c, d, t', rfl, h1, h2⟩ := padded_two hw h
  rw [List.cons_append, List.cons_append]
  apply integer_none h1 h2 (e := e) (by simp)
  · rcases he with rfl | rfl <;> decide
  · rcases he with rfl | rfl <;> decide

theorem date_plain {t : Str} (h : TomlDate t) (u : Str) (hu : ∀ c ∈ u, isBareValue c = true) : Plain (t ++ u) := by
  obtain ⟨a, b, c, y, m, d, ha, hb, hc, _, _, _, _, rfl⟩ := h
  refine ⟨?_, mem_bare_append (mem_bare_append (padded_bare ha) (mem_bare_cons (by decide) (mem_bare_append (padded_bare hb)
    (mem_bare_cons (by decide) (padded_bare hc))))) hu, by simp⟩
  rw [List.append_assoc, List.cons_append]
  exact padded_none (by decide) ha (.inl rfl)

theorem time_plain {t : Str} (h : TomlTime t) : Plain t := by
  obtain ⟨a, b, c, f, hh, m, s, ha, hb, hc, _, _, _, hf, rfl⟩ := h
  have hf' : ∀ c ∈ f, isBareValue c = true := by
    rcases hf with rfl | ⟨ds, _, _, hd, rfl⟩
    · simp
    · exact mem_bare_cons (by decide) (fun c hc => (digit_bare (by decide) (hd c hc)).1)
  refine ⟨padded_none (by decide) ha (.inr rfl), mem_bare_append (padded_bare ha) (mem_bare_cons (by decide)
    (mem_bare_append (padded_bare hb) (mem_bare_cons (by decide) (mem_bare_append (padded_bare hc) hf')))), by simp⟩

theorem zone_bare {t : Str} (h : TomlZone t) : ∀ c ∈ t, isBareValue c = true := by
  rcases h with rfl | rfl | ⟨s, a, b, hh, m, hs, ha, hb, _, _, rfl⟩
  · decide
  · decide
  · refine mem_bare_cons ?_ (mem_bare_append (padded_bare ha) (mem_bare_cons (by decide) (padded_bare hb)))
    rcases hs with rfl | rfl <;> decide

theorem other_of {t : Str} (h : TomlOther t) : bare t = some .other ∧ (∀ c ∈ t, isBareValue c = true) ∧ t ≠ [] := by
  have key : Plain t := by
    rcases h with rfl | rfl | h | h | h | ⟨d, s, u, z, hd, hs, hu, hz, rfl⟩
    · exact ⟨by decide, by decide, by decide⟩
    · exact ⟨by decide, by decide, by decide⟩
    · exact float_plain h
    · have := date_plain h [] (by simp); simpa using this
    · exact time_plain h
    · apply date_plain hd
      refine mem_bare_cons ?_ (mem_bare_append (time_plain hu).2.1 ?_)
      · rcases hs with rfl | rfl <;> decide
      · rcases hz with rfl | hz
        · simp
        · exact zone_bare hz
  obtain ⟨h1, h2, h3⟩ := key
  refine ⟨?_, h2, h3⟩
  rw [bare, h1]
  cases t with
  | nil => exact absurd rfl h3
  | cons c t => rfl

/-! ### Values -/

/-- The first character of a value. -/
def ValueHead (c : Char) : Prop := c = '"' ∨ c = '\'' ∨ c = '[' ∨ c = '{' ∨ isBareValue c = true

theorem valueHead_facts {c : Char} (h : ValueHead c) :
    (c ≠ '\n' ∧ c ≠ '\r' ∧ isBlank c = false ∧ c ≠ '#') ∧ c ≠ ']' := by
  rcases h with rfl | rfl | rfl | rfl | h
  · decide
  · decide
  · decide
  · decide
  · have hb : isBlank c = false := by
      by_cases hb : isBlank c = true
      · have h' : c = ' ' ∨ c = '\t' := by simpa [isBlank] using hb
        rcases h' with rfl | rfl <;> exact absurd h (by decide)
      · simpa using hb
    refine ⟨⟨?_, ?_, hb, ?_⟩, ?_⟩ <;> (rintro rfl; exact absurd h (by decide))

theorem value_head {v : TNode} {t : Str} (h : TomlValue v t) : ∃ c t', t = c :: t' ∧ ValueHead c := by
  have key : ∀ u : Str, (∀ c ∈ u, isBareValue c = true) → u ≠ [] → ∃ c t', u = c :: t' ∧ ValueHead c := by
    intro u hu hne
    obtain ⟨c, t', rfl⟩ := List.exists_cons_of_ne_nil hne
    exact ⟨c, t', rfl, .inr (.inr (.inr (.inr (hu c (by simp)))))⟩
  cases h with
  | basic _ => exact ⟨_, _, rfl, .inl rfl⟩
  | literal _ => exact ⟨_, _, rfl, .inr (.inl rfl)⟩
  | lines _ _ => exact ⟨_, _, rfl, .inl rfl⟩
  | rawLines _ _ => exact ⟨_, _, rfl, .inr (.inl rfl)⟩
  | int h => exact key _ (integer_of h).2.1 (integer_of h).2.2
  | other h => exact key _ (other_of h).2.1 (other_of h).2.2
  | arr _ => exact ⟨_, _, rfl, .inr (.inr (.inl rfl))⟩
  | empty _ => exact ⟨_, _, rfl, .inr (.inr (.inr (.inl rfl)))⟩
  | table _ _ _ => exact ⟨_, _, rfl, .inr (.inr (.inr (.inl rfl)))⟩

theorem value_bare {n : Nat} {v : TNode} {t rest : Str} (hb : bare t = some v) (ht : ∀ c ∈ t, isBareValue c = true) (hne : t ≠ [])
    (hr : After rest) : value (n + 1) (t ++ rest) = some (v, rest) := by
  obtain ⟨h1, h2⟩ := takeWhile_all (p := isBareValue) ht (fun c hc => (hr c hc).1)
  obtain ⟨c, t', rfl⟩ := List.exists_cons_of_ne_nil hne
  have hc := ht c (by simp)
  have hq : ∀ q : Char, isBareValue q = false → c ≠ q := by rintro q hq rfl; rw [hq] at hc; cases hc
  rw [List.cons_append] at h1 h2 ⊢
  unfold value
  rw [quotes_none (by simpa using hq _ (by decide))]
  dsimp only
  rw [quotes_none (by simpa using hq _ (by decide))]
  dsimp only
  split <;> first
    | (rename_i h; injection h with h _; exact absurd h (hq _ (by decide)))
    | (rw [h1, h2, hb]; rfl)

theorem quotes_string {q : Char} {raw rest : Str} (h : raw.head? ≠ some q) (hr : rest.head? ≠ some q) :
    quotes q (q :: (raw ++ q :: rest)) = none := by
  cases raw with
  | nil => exact quotes_none2 hr
  | cons c raw => exact quotes_none1 (by simpa using h)

theorem basic_first {t raw : Str} (h : TomlBasic t raw) : raw.head? ≠ some '"' := by
  cases h with
  | nil => simp
  | char _ hq _ _ => simpa using hq
  | escape he _ => obtain ⟨d, e', rfl, _⟩ := escape_of he; simp

theorem literal_first {t : Str} (h : TomlLiteral t) : t.head? ≠ some '\'' := by
  cases t with
  | nil => simp
  | cons c t => simpa using (h c (by simp)).2

theorem after_head {rest : Str} (h : After rest) : rest.head? ≠ some '"' ∧ rest.head? ≠ some '\'' :=
  ⟨fun h' => (h _ h').2.1 rfl, fun h' => (h _ h').2.2 rfl⟩

theorem key_equals {ks : List Str} {t : Str} (h : TomlKey ks t) {n : Nat} {b rest : Str} (hn : t.length ≤ n) (hb : TomlBlank b) :
    key n (t ++ (b ++ '=' :: rest)) = some (ks, '=' :: rest) := key_of h hn hb (by decide) (by decide) (by decide)

theorem key_bracket {ks : List Str} {t : Str} (h : TomlKey ks t) {n : Nat} {b rest : Str} (hn : t.length ≤ n) (hb : TomlBlank b) :
    key n (t ++ (b ++ ']' :: rest)) = some (ks, ']' :: rest) := key_of h hn hb (by decide) (by decide) (by decide)

theorem skipBlank_cons {b rest : Str} {c : Char} (hb : TomlBlank b) (hc : isBlank c = false) : skipBlank (b ++ c :: rest) = c :: rest :=
  skipBlank_append hb (by intro d h; simp at h; exact h ▸ hc)

theorem skipBlank_value {b t rest : Str} {v : TNode} (hb : TomlBlank b) (h : TomlValue v t) : skipBlank (b ++ (t ++ rest)) = t ++ rest := by
  obtain ⟨c, t', rfl, hc⟩ := value_head h
  exact skipBlank_cons hb (valueHead_facts hc).1.2.2.1

theorem skipBlank_key {b t rest : Str} {ks : List Str} (hb : TomlBlank b) (h : TomlKey ks t) : skipBlank (b ++ (t ++ rest)) = t ++ rest := by
  obtain ⟨c, t', rfl, hc⟩ := key_head h
  exact skipBlank_cons hb (keyHead_facts hc).1

theorem inline_head {l : List (List Str × TNode)} {t : Str} (h : TomlInline l t) : ∃ c t', t = c :: t' ∧ KeyHead c := by
  cases h with
  | last hk _ _ _ _ => obtain ⟨c, t', rfl, hc⟩ := key_head hk; exact ⟨c, _, rfl, hc⟩
  | cons hk _ _ _ _ _ _ => obtain ⟨c, t', rfl, hc⟩ := key_head hk; exact ⟨c, _, rfl, hc⟩

theorem succ_of {n k : Nat} (h : k + 1 ≤ n) : ∃ m, n = m + 1 := ⟨n - 1, by omega⟩

mutual
theorem value_of {v : TNode} {t : Str} : TomlValue v t → ∀ n rest, 2 * t.length ≤ n → After rest → value n (t ++ rest) = some (v, rest)
  | .basic (t := t) (raw := raw) h => by
    intro n rest hn hr
    obtain ⟨n, rfl⟩ := succ_of (n := n) (k := 0) (by simp at hn; omega)
    rw [List.cons_append, List.append_assoc]
    show value (n + 1) ('"' :: (raw ++ '"' :: rest)) = _
    unfold value
    rw [quotes_string (basic_first h) (after_head hr).1]
    dsimp only
    rw [quotes_none (by simp)]
    show (basic n (raw ++ '"' :: rest)).map _ = _
    rw [basic_of h n rest (by simp at hn; omega)]; rfl
  | .literal (t := t) h => by
    intro n rest hn hr
    obtain ⟨n, rfl⟩ := succ_of (n := n) (k := 0) (by simp at hn; omega)
    rw [List.cons_append, List.append_assoc]
    show value (n + 1) ('\'' :: (t ++ '\'' :: rest)) = _
    unfold value
    rw [quotes_none (by simp)]
    dsimp only
    rw [quotes_string (literal_first h) (after_head hr).2]
    show (literal (t ++ '\'' :: rest)).map _ = _
    rw [literal_of h]; rfl
  | .lines (first := first) (t := t) (raw := raw) hf h => by
    intro n rest hn hr
    obtain ⟨n, rfl⟩ := succ_of (n := n) (k := 0) (by simp at hn; omega)
    rw [List.append_assoc, List.append_assoc]
    show value (n + 1) ('"' :: '"' :: '"' :: (first ++ (raw ++ rest))) = _
    unfold value
    rw [quotes_some]
    dsimp only
    rw [dropNewline_of hf (lines_ne h), mlBasic_of h n rest (by simp at hn; omega) (after_head hr).1]; rfl
  | .rawLines (first := first) (t := t) (raw := raw) hf h => by
    intro n rest hn hr
    obtain ⟨n, rfl⟩ := succ_of (n := n) (k := 0) (by simp at hn; omega)
    rw [List.append_assoc, List.append_assoc]
    show value (n + 1) ('\'' :: '\'' :: '\'' :: (first ++ (raw ++ rest))) = _
    unfold value
    rw [quotes_none (by simp)]
    dsimp only
    rw [quotes_some]
    dsimp only
    rw [dropNewline_of hf (rawLines_ne h), mlLiteral_of h n rest (by simp at hn; omega) (after_head hr).2]; rfl
  | .int h => by
    intro n rest hn hr
    obtain ⟨h1, h2, h3⟩ := integer_of h
    have : 1 ≤ t.length := List.length_pos_iff.2 h3
    obtain ⟨n, rfl⟩ := succ_of (n := n) (k := 0) (by omega)
    exact value_bare h1 h2 h3 hr
  | .other h => by
    intro n rest hn hr
    obtain ⟨h1, h2, h3⟩ := other_of h
    have : 1 ≤ t.length := List.length_pos_iff.2 h3
    obtain ⟨n, rfl⟩ := succ_of (n := n) (k := 0) (by omega)
    exact value_bare h1 h2 h3 hr
  | .arr (l := l) (t := t) h => by
    intro n rest hn hr
    obtain ⟨n, rfl⟩ := succ_of (n := n) (k := 0) (by simp at hn; omega)
    have := items_of h n rest (by simp at hn; omega)
    rw [List.cons_append]
    unfold value
    rw [quotes_none (by simp)]
    dsimp only
    rw [quotes_none (by simp)]
    show (items n (t ++ rest)).map _ = _
    rw [this]; rfl
  | .empty (b := b) hb => by
    intro n rest hn hr
    obtain ⟨n, rfl⟩ := succ_of (n := n) (k := 0) (by simp at hn; omega)
    rw [List.cons_append, List.append_assoc]
    unfold value
    rw [quotes_none (by simp)]
    dsimp only
    rw [quotes_none (by simp)]
    show (match skipBlank (b ++ '}' :: rest) with
      | '}' :: u => some (TNode.table [], u)
      | u => (pairs n [] u).map fun (p : List (Str × Part) × Str) => (TNode.table (closeAll p.1), p.2)) = _
    rw [skipBlank_cons hb (by decide)]; rfl
  | .table (b := b) (t := t) (l := l) (es := es) hb h hp => by
    intro n rest hn hr
    obtain ⟨n, rfl⟩ := succ_of (n := n) (k := 0) (by simp at hn; omega)
    obtain ⟨e', he, hc⟩ := putAll_own hp
    have := pairs_of h n [] e' rest (by simp at hn; omega) he
    rw [List.cons_append, List.append_assoc]
    unfold value
    rw [quotes_none (by simp)]
    dsimp only
    rw [quotes_none (by simp)]
    show (match skipBlank (b ++ (t ++ rest)) with
      | '}' :: u => some (TNode.table [], u)
      | u => (pairs n [] u).map fun (p : List (Str × Part) × Str) => (TNode.table (closeAll p.1), p.2)) = _
    obtain ⟨c, t', rfl, hh⟩ := inline_head h
    rw [List.cons_append] at this ⊢
    rw [skipBlank_cons hb (keyHead_facts hh).1]
    split
    · rename_i h; injection h with h _; exact absurd h (keyHead_facts hh).2.2.1
    · rw [this]; simp [hc]
theorem items_of {l : List TNode} {t : Str} : TomlItems l t → ∀ n rest, 2 * t.length + 1 ≤ n → items n (t ++ rest) = some (l, rest)
  | .nil (g := g) hg => by
    intro n rest hn
    obtain ⟨n, rfl⟩ := succ_of hn
    rw [List.append_assoc, items, skipGap_append hg, show g!"]" ++ rest = ']' :: rest from rfl, skipGap_stop (by decide)]; rfl
  | .last (g := g) (t := t) (g' := g') (v := v) hg hv hg' => by
    intro n rest hn
    obtain ⟨n, rfl⟩ := succ_of hn
    have ih := value_of hv n (g' ++ ']' :: rest) (by simp at hn; omega) (after_gap hg' (after_cons (by decide)))
    rw [List.append_assoc, List.append_assoc, List.append_assoc, items, skipGap_append hg]
    show ((skipGap false (t ++ (g' ++ ']' :: rest))).bind _) = _
    obtain ⟨c, t', rfl, hc⟩ := value_head hv
    rw [List.cons_append] at ih ⊢
    rw [skipGap_stop (valueHead_facts hc).1, Option.bind_some]
    split
    · rename_i h; injection h with h _; exact absurd h (valueHead_facts hc).2
    · rw [ih, Option.bind_some, skipGap_append hg', skipGap_stop (by decide)]; rfl
  | .cons (g := g) (t := t) (g' := g') (u := u) (v := v) (l := l) hg hv hg' hl => by
    intro n rest hn
    obtain ⟨n, rfl⟩ := succ_of hn
    have ih := value_of hv n (g' ++ ',' :: (u ++ rest)) (by simp at hn; omega) (after_gap hg' (after_cons (by decide)))
    have ih2 := items_of hl n rest (by simp at hn; omega)
    rw [List.append_assoc, List.append_assoc, List.append_assoc, items, skipGap_append hg]
    show ((skipGap false (t ++ (g' ++ ',' :: (u ++ rest)))).bind _) = _
    obtain ⟨c, t', rfl, hc⟩ := value_head hv
    rw [List.cons_append] at ih ⊢
    rw [skipGap_stop (valueHead_facts hc).1, Option.bind_some]
    split
    · rename_i h; injection h with h _; exact absurd h (valueHead_facts hc).2
    · rw [ih, Option.bind_some, skipGap_append hg', skipGap_stop (by decide), Option.bind_some]
      show (items n (u ++ rest)).map _ = _
      rw [ih2]; rfl
theorem pairs_of {l : List (List Str × TNode)} {t : Str} : TomlInline l t → ∀ n es es' rest, 2 * t.length + 1 ≤ n →
    putAll es l = some es' → pairs n es (t ++ rest) = some (es', rest)
  | .last (k := k) (v := v) (t := t) (a := a) (b := b) (u := u) (c := c) hk ha hb hv hc => by
    intro n es es' rest hn hp
    obtain ⟨n, rfl⟩ := succ_of hn
    have ih := value_of hv n (c ++ '}' :: rest) (by simp at hn; omega) (after_blank hc (after_cons (by decide)))
    rw [pairs]
    have he : (t ++ (a ++ '=' :: (b ++ (u ++ (c ++ g!"}"))))) ++ rest = t ++ (a ++ '=' :: (b ++ (u ++ (c ++ '}' :: rest)))) := by simp
    rw [he, key_equals hk (by simp at hn; omega) ha, Option.bind_some]
    show (value n (skipBlank (b ++ (u ++ (c ++ '}' :: rest))))).bind _ = _
    rw [skipBlank_value hb hv, ih, Option.bind_some]
    dsimp only
    obtain ⟨e1, h1, h2⟩ := Option.bind_eq_some_iff.1 hp
    simp only [putAll, Option.some.injEq] at h2
    subst h2
    rw [h1, Option.bind_some, skipBlank_cons hc (by decide)]; rfl
  | .cons (k := k) (v := v) (t := t) (a := a) (b := b) (u := u) (c := c) (d := d) (w := w) (l := l) hk ha hb hv hc hd hl => by
    intro n es es' rest hn hp
    obtain ⟨n, rfl⟩ := succ_of hn
    have ih := value_of hv n (c ++ ',' :: (d ++ (w ++ rest))) (by simp at hn; omega) (after_blank hc (after_cons (by decide)))
    obtain ⟨e1, h1, h2⟩ := Option.bind_eq_some_iff.1 hp
    have ih2 := pairs_of hl n e1 es' rest (by simp at hn; omega) h2
    rw [pairs]
    have he : (t ++ (a ++ '=' :: (b ++ (u ++ (c ++ ',' :: (d ++ w)))))) ++ rest =
      t ++ (a ++ '=' :: (b ++ (u ++ (c ++ ',' :: (d ++ (w ++ rest)))))) := by simp
    rw [he, key_equals hk (by simp at hn; omega) ha, Option.bind_some]
    show (value n (skipBlank (b ++ (u ++ (c ++ ',' :: (d ++ (w ++ rest))))))).bind _ = _
    rw [skipBlank_value hb hv, ih, Option.bind_some]
    dsimp only
    rw [h1, Option.bind_some, skipBlank_cons hc (by decide)]
    show pairs n e1 (skipBlank (d ++ (w ++ rest))) = _
    have hs : skipBlank (d ++ (w ++ rest)) = w ++ rest := by
      obtain ⟨x, w', rfl, hx⟩ := inline_head hl
      exact skipBlank_cons hd (keyHead_facts hx).1
    rw [hs, ih2]
end

/-! ### Statements -/

theorem line_empty {u s : Str} (h : TomlEnd u s) (n : Nat) : line n s = some (none, u) := by
  have hl : lineEnd false (skipBlank s) = some u := by rw [lineEnd_skipBlank, lineEnd_of h]
  have hno : ∀ t, skipBlank s ≠ '[' :: t := by
    intro t ht
    rw [ht, lineEnd_cons (by decide) (by decide)] at hl
    simp [show isBlank '[' = false from by decide] at hl
  unfold line
  split
  · rename_i h; exact absurd h (hno _)
  · rename_i h; exact absurd h (hno _)
  · rw [hl]

theorem line_set {k : List Str} {v : TNode} {a t b c w u s : Str} (ha : TomlBlank a) (hk : TomlKey k t) (hb : TomlBlank b)
    (hc : TomlBlank c) (hv : TomlValue v w) (he : TomlEnd u s) {n : Nat} (hn : 2 * (t ++ w).length ≤ n) :
    line n (a ++ (t ++ (b ++ '=' :: (c ++ (w ++ s))))) = some (some (.set k v), u) := by
  have h1 := key_equals hk (n := n) (rest := c ++ (w ++ s)) (by simp at hn; omega) hb
  have h2 := value_of hv n s (by simp at hn; omega) (after_end he)
  unfold line
  rw [skipBlank_key ha hk]
  obtain ⟨x, t', rfl, hx⟩ := key_head hk
  obtain ⟨f1, f2, f3, f4, f5, f6⟩ := keyHead_facts hx
  rw [List.cons_append] at h1 ⊢
  split
  · rename_i h; injection h with h _; exact absurd h f2
  · rename_i h; injection h with h _; exact absurd h f2
  · have hl : lineEnd false (x :: (t' ++ (b ++ '=' :: (c ++ (w ++ s))))) = none := by
      rw [lineEnd_cons f4 f5, if_neg (by decide), f1, if_neg (by decide), if_neg f6]
    rw [hl]
    dsimp only
    rw [h1, Option.bind_some]
    show (value n (skipBlank (c ++ (w ++ s)))).bind _ = _
    rw [skipBlank_value hc hv, h2, Option.bind_some]
    dsimp only
    rw [lineEnd_of he]; rfl

theorem line_table {k : List Str} {a b t c u s : Str} (ha : TomlBlank a) (hb : TomlBlank b) (hk : TomlKey k t) (hc : TomlBlank c)
    (he : TomlEnd u s) {n : Nat} (hn : t.length ≤ n) :
    line n (a ++ '[' :: (b ++ (t ++ (c ++ ']' :: s)))) = some (some (.table k), u) := by
  have h1 := key_bracket hk (rest := s) hn hc
  unfold line
  rw [skipBlank_cons ha (by decide)]
  split
  · rename_i x h
    injection h with _ h
    exfalso
    cases b with
    | nil =>
      obtain ⟨y, t', rfl, hy⟩ := key_head hk
      injection h with h _; exact (keyHead_facts hy).2.1 h
    | cons y b =>
      injection h with h _
      have := hb y (by simp); subst h; revert this; decide
  · rename_i x _ h
    injection h with _ h; subst h
    rw [skipBlank_key hb hk, h1, Option.bind_some]
    show (lineEnd false s).map _ = _
    rw [lineEnd_of he]; rfl
  · rename_i h h'; exact absurd rfl (h' _)

theorem line_item {k : List Str} {a b t c u s : Str} (ha : TomlBlank a) (hb : TomlBlank b) (hk : TomlKey k t) (hc : TomlBlank c)
    (he : TomlEnd u s) {n : Nat} (hn : t.length ≤ n) :
    line n (a ++ '[' :: '[' :: (b ++ (t ++ (c ++ ']' :: ']' :: s)))) = some (some (.item k), u) := by
  have h1 := key_bracket hk (rest := ']' :: s) hn hc
  unfold line
  rw [skipBlank_cons ha (by decide)]
  show (key n (skipBlank (b ++ (t ++ (c ++ ']' :: ']' :: s))))).bind _ = _
  rw [skipBlank_key hb hk, h1, Option.bind_some]
  show (lineEnd false s).map _ = _
  rw [lineEnd_of he]; rfl

theorem end_le {u s : Str} (h : TomlEnd u s) : u.length ≤ s.length := by
  by_cases hs : s = []
  · obtain ⟨b, c, _, _, h⟩ := h
    rcases h with ⟨n, _, rfl⟩ | ⟨rfl, _⟩
    · simp; omega
    · simp
  · exact Nat.le_of_lt (tomlEnd_length h hs)

theorem statements_cons {n : Nat} {s : Str} (hs : s ≠ []) {x : Option Stmt} {u : Str} {l : List Stmt}
    (h1 : line (2 * (n + 1)) s = some (x, u)) (h2 : statements n u = some l) : statements (n + 1) s = some (x.toList ++ l) := by
  obtain ⟨c, t, rfl⟩ := List.exists_cons_of_ne_nil hs
  rw [statements, h1, Option.bind_some, h2]
  · rfl
  · exact hs

theorem statements_of {l : List Stmt} {s : Str} (h : TomlStmts l s) : ∀ n, s.length ≤ n → statements n s = some l := by
  induction h with
  | nil => intro n _; cases n <;> rfl
  | @empty l u s he hs _ ih =>
    intro n hn
    have := tomlEnd_length he hs
    obtain ⟨n, rfl⟩ := succ_of (n := n) (k := u.length) (by omega)
    exact statements_cons hs (line_empty he _) (ih n (by omega))
  | @set l k v a t b c w u s ha hk hb hc hv he _ ih =>
    intro n hn
    have := end_le he
    obtain ⟨n, rfl⟩ := succ_of (n := n) (k := 0) (by simp at hn; omega)
    exact statements_cons (by simp) (line_set ha hk hb hc hv he (by simp at hn ⊢; omega)) (ih n (by simp at hn; omega))
  | @table l k a b t c u s ha hb hk hc he _ ih =>
    intro n hn
    have := end_le he
    obtain ⟨n, rfl⟩ := succ_of (n := n) (k := 0) (by simp at hn; omega)
    exact statements_cons (by simp) (line_table ha hb hk hc he (by simp at hn ⊢; omega)) (ih n (by simp at hn; omega))
  | @item l k a b t c u s ha hb hk hc he _ ih =>
    intro n hn
    have := end_le he
    obtain ⟨n, rfl⟩ := succ_of (n := n) (k := 0) (by simp at hn; omega)
    exact statements_cons (by simp) (line_item ha hb hk hc he (by simp at hn ⊢; omega)) (ih n (by simp at hn; omega))

theorem read_of {n : TNode} {text : Str} (h : TomlDoc n text) : read text = some n := by
  obtain ⟨es, l, rfl, hb, ht⟩ := h
  rw [read, statements_of ht _ (Nat.le_refl _), Option.bind_some]
  exact steps_doc hb

end Osv.TomlText
