import Verif.Lemmas.PypiOrder
/-! # Texts of PyPI versions are read as what they say -/
namespace Osv.Pypi
open Str Semantic Spec.Pep440 Spec.ModText
open Spec.Precedence (Decimal Before)

/-! ### Beginnings -/

def NoDigit (s : Str) : Prop := ∀ c r, s = c :: r → ¬ Digit c

def Letter (c : Char) : Prop := 'a' ≤ c ∧ c ≤ 'z'

theorem takeWhile_digits {s : Str} (h : NoDigit s) : s.takeWhile isDigit = [] := by
  cases s with
  | nil => rfl
  | cons c r => rw [List.takeWhile_cons, if_neg fun e => h c r rfl (isDigit_iff.mp e)]

theorem decimal_read {d rest : Str} {n : Nat} (h : Decimal d n) (hr : NoDigit rest) :
    (d ++ rest).takeWhile isDigit = d ∧ (d ++ rest).dropWhile isDigit = rest ∧ decimal d = n := by
  obtain ⟨h1, h2⟩ := numeral_decimal.mp h.2
  have ha : ∀ c ∈ d, isDigit c = true := fun c hc => isDigit_iff.mpr (h1 c hc)
  refine ⟨?_, ?_, h2⟩
  · rw [List.takeWhile_append_of_pos ha, takeWhile_digits hr, List.append_nil]
  · rw [List.dropWhile_append_of_pos ha]
    cases rest with
    | nil => rfl
    | cons c r => rw [List.dropWhile_cons, if_neg fun e => hr c r rfl (isDigit_iff.mp e)]

theorem decimal_head {d : Str} {n : Nat} (h : Decimal d n) : ∃ c r, d = c :: r ∧ Digit c := by
  obtain ⟨c, r, rfl⟩ := List.exists_cons_of_ne_nil h.1
  exact ⟨c, r, rfl, (numeral_decimal.mp h.2).1 c (by simp)⟩

theorem digit_ne {c k : Char} (h : Digit c) (hk : ¬ Digit k) : c ≠ k := fun e => hk (e ▸ h)

theorem digit_sep {c : Char} (h : Digit c) : ¬ (c = '-' ∨ c = '_' ∨ c = '.') := by
  rintro (rfl | rfl | rfl) <;> revert h <;> unfold Digit <;> decide

theorem digit_letter {c : Char} (h : Digit c) : ¬ Letter c := by
  intro h'
  have h1 := digit_nat.mp h
  have h2 : 97 ≤ c.toNat := h'.1
  omega

theorem dropSep_other {c : Char} {r : Str} (h : ¬ (c = '-' ∨ c = '_' ∨ c = '.')) : dropSep (c :: r) = c :: r := by
  show (if c = '-' ∨ c = '_' ∨ c = '.' then r else c :: r) = c :: r
  rw [if_neg h]

theorem dropSep_sep {s r : Str} (h : Sep s) (hr : dropSep r = r) : dropSep (s ++ r) = r := by
  rcases h with rfl | ⟨c, hc, rfl⟩
  · exact hr
  · show (if c = '-' ∨ c = '_' ∨ c = '.' then r else c :: r) = r
    rw [if_pos]
    rcases hc with h | h | h
    · exact .inr (.inr h)
    · exact .inl h
    · exact .inr (.inl h)

theorem dropSep_letter {c : Char} {r : Str} (h : Letter c) : dropSep (c :: r) = c :: r := by
  apply dropSep_other
  rintro (rfl | rfl | rfl) <;> revert h <;> unfold Letter <;> decide

/-- None of the words begins like this. -/
theorem word_none {ws : List (Str × Str)} (hw : ∀ p ∈ ws, ∃ k r, p.1 = k :: r ∧ Letter k) {s : Str} (hs : ∀ c r, s = c :: r → ¬ Letter c) :
    word ws s = none := by
  induction ws with
  | nil => rfl
  | cons p ws ih =>
    obtain ⟨w, l⟩ := p
    obtain ⟨k, r, e, hk⟩ := hw _ (List.mem_cons_self ..)
    dsimp only at e
    subst e
    unfold word
    rw [if_neg, ih fun p hp => hw p (List.mem_cons_of_mem _ hp)]
    intro h
    cases s with
    | nil => cases h
    | cons c t =>
      unfold hasPrefix at h
      simp only [List.isPrefixOf, Bool.and_eq_true, beq_iff_eq] at h
      exact hs c t rfl (h.1 ▸ hk)

theorem preWords_letters : ∀ p ∈ preWords, ∃ k r, p.1 = k :: r ∧ Letter k := by
  intro p hp
  simp only [preWords, List.mem_cons, List.not_mem_nil, or_false] at hp
  rcases hp with rfl | rfl | rfl | rfl | rfl | rfl | rfl | rfl <;> exact ⟨_, _, rfl, by unfold Letter; decide⟩

theorem postWords_letters : ∀ p ∈ postWords, ∃ k r, p.1 = k :: r ∧ Letter k := by
  intro p hp
  simp only [postWords, List.mem_cons, List.not_mem_nil, or_false] at hp
  rcases hp with rfl | rfl | rfl <;> exact ⟨_, _, rfl, by unfold Letter; decide⟩

theorem devWords_letters : ∀ p ∈ devWords, ∃ k r, p.1 = k :: r ∧ Letter k := by
  intro p hp
  simp only [devWords, List.mem_cons, List.not_mem_nil, or_false] at hp
  rcases hp with rfl <;> exact ⟨_, _, rfl, by unfold Letter; decide⟩

/-- What follows a word does not make another word of it. -/
def Safe (s : Str) : Prop := ∀ c r, s = c :: r → c ≠ 'l' ∧ c ≠ 'e' ∧ c ≠ 'v' ∧ c ≠ 'c'

theorem preWord_read {w rest : Str} {p : Phase} (h : PhaseWord w p) (hs : Safe rest) : word preWords (w ++ rest) = some (letter p, rest) := by
  cases rest with
  | nil => cases h <;> rfl
  | cons c r =>
    obtain ⟨h1, h2, h3, h4⟩ := hs c r rfl
    cases h <;> simp [word, preWords, hasPrefix, List.isPrefixOf, letter, h1.symm, h2.symm, h3.symm]

theorem postWord_read {w rest : Str} (h : w = g!"post" ∨ w = g!"rev" ∨ w = g!"r") (hs : Safe rest) :
    word postWords (w ++ rest) = some (g!"post", rest) := by
  cases rest with
  | nil => rcases h with rfl | rfl | rfl <;> rfl
  | cons c r =>
    obtain ⟨h1, h2, h3, h4⟩ := hs c r rfl
    rcases h with rfl | rfl | rfl <;> simp [word, postWords, hasPrefix, List.isPrefixOf, h2.symm]

theorem devWord_read (rest : Str) : word devWords (g!"dev" ++ rest) = some (g!"dev", rest) := by
  simp [word, devWords, hasPrefix, List.isPrefixOf]

/-- The word and its number are read; behind a word without number a separator is taken as well. -/
theorem tagged_read {ws : List (Str × Str)} {w t rest l : Str} {n : Nat} (h : Tagged w t n) (hw : ∃ c r, w = c :: r ∧ Letter c)
    (hword : ∀ rest, Safe rest → word ws (w ++ rest) = some (l, rest)) (hs : Safe rest) (hd : NoDigit rest) {x : Str}
    (hx : dropSep x = dropSep (t ++ rest)) :
    (tagged ws x = (some (l, n), rest) ∧ ∃ t' c, t = t' ++ [c] ∧ Digit c) ∨
    ((∃ s, t = s ++ w) ∧ (NoDigit (dropSep rest) → tagged ws x = (some (l, n), dropSep rest))) := by
  obtain ⟨c, r, rfl, hc⟩ := hw
  cases h with
  | number h1 h2 h3 =>
    rename_i s s' d
    refine .inl ⟨?_, ?_⟩
    · have e : dropSep x = (c :: r) ++ (s' ++ (d ++ rest)) := by
        rw [hx, List.append_assoc, List.append_assoc, List.append_assoc]
        exact dropSep_sep h1 (dropSep_letter hc)
      obtain ⟨k, q, rfl, hk⟩ := decimal_head h3
      have hsafe : Safe (s' ++ (k :: q ++ rest)) := by
        intro c' r' e'
        rcases h2 with rfl | ⟨m, hm, rfl⟩
        · injection e' with e' _
          subst e'
          refine ⟨?_, ?_, ?_, ?_⟩ <;> exact digit_ne hk (by unfold Digit; decide)
        · injection e' with e' _
          subst e'
          rcases hm with rfl | rfl | rfl <;> decide
      obtain ⟨d1, d2, d3⟩ := decimal_read h3 hd
      unfold tagged
      rw [e, hword _ hsafe]
      dsimp only
      rw [dropSep_sep h2 (show dropSep (k :: q ++ rest) = k :: q ++ rest from dropSep_other (digit_sep hk)), d1, d2, d3]
    · have hne := h3.1
      refine ⟨s ++ (c :: r ++ (s' ++ d.dropLast)), d.getLast hne, ?_, (numeral_decimal.mp h3.2).1 _ (List.getLast_mem hne)⟩
      simp [List.dropLast_concat_getLast]
  | plain h1 =>
    refine .inr ⟨⟨_, rfl⟩, fun hn => ?_⟩
    have e : dropSep x = (c :: r) ++ rest := by
      rw [hx, List.append_assoc]
      exact dropSep_sep h1 (dropSep_letter hc)
    unfold tagged
    rw [e, hword _ hs]
    dsimp only
    rw [takeWhile_digits hn]
    have : (dropSep rest).dropWhile isDigit = dropSep rest := by
      cases e : dropSep rest with
      | nil => rfl
      | cons a b => rw [List.dropWhile_cons, if_neg fun h => hn a b e (isDigit_iff.mp h)]
    rw [this]
    rfl

theorem tagged_none {ws : List (Str × Str)} {x : Str} (h : word ws (dropSep x) = none) : tagged ws x = (none, x) := by
  unfold tagged; rw [h]

/-! ### What follows a part -/

structure Ends (x : Str) : Prop where
  digit : NoDigit x
  dot : ∀ r, x = '.' :: r → NoDigit r
  bang : ∀ r, x ≠ '!' :: r

/-- What follows when there is no number behind a separator. -/
structure Mid (x : Str) : Prop where
  ends : Ends x
  safe : Safe x
  soft : NoDigit (dropSep x)
  fixed : ∀ c r, dropSep x = c :: r → ¬ (c = '-' ∨ c = '_' ∨ c = '.')

theorem Mid.idem {x : Str} (h : Mid x) : dropSep (dropSep x) = dropSep x := by
  cases e : dropSep x with
  | nil => rfl
  | cons c r => exact dropSep_other (h.fixed c r e)

/-- A local version, spaces or the end. -/
structure Base (x : Str) : Prop where
  none : dropSep x = x
  mid : Mid x
  letter : ∀ c r, x = c :: r → ¬ Letter c

theorem base_of {x : Str} (h : ∀ c r, x = c :: r → c = '+' ∨ c = ' ' ∨ c = '\t' ∨ c = '\n' ∨ c = '\x0c' ∨ c = '\r') : Base x := by
  cases x with
  | nil =>
    have f : ∀ {P : Char → Prop}, ∀ c r, ([] : Str) = c :: r → P c := fun c r e => (List.cons_ne_nil c r e.symm).elim
    have g : ∀ {P : Str → Prop} {c : Char}, ∀ r, ([] : Str) = c :: r → P r := fun r e => (List.cons_ne_nil _ r e.symm).elim
    exact ⟨rfl, ⟨⟨f, g, fun r e => List.cons_ne_nil _ r e.symm⟩, f, f, f⟩, f⟩
  | cons c r =>
    have key : ¬ (c = '-' ∨ c = '_' ∨ c = '.') ∧ ¬ Digit c ∧ ¬ Letter c ∧ c ≠ '.' ∧ c ≠ '!' ∧ (c ≠ 'l' ∧ c ≠ 'e' ∧ c ≠ 'v' ∧ c ≠ 'c') := by
      unfold Digit Letter
      rcases h c r rfl with rfl | rfl | rfl | rfl | rfl | rfl <;> decide
    obtain ⟨k1, k2, k3, k4, k5, k6⟩ := key
    have e := dropSep_other (r := r) k1
    have hd : ∀ {P : Char → Prop}, P c → ∀ a b, c :: r = a :: b → P a := fun hp a b e => by injection e with e _; exact e ▸ hp
    exact ⟨e, ⟨⟨hd k2, fun _ e => by injection e with e _; exact absurd e k4, fun _ e => by injection e with e _; exact k5 e⟩, hd k6,
      by rw [e]; exact hd k2, by rw [e]; exact hd k1⟩, hd k3⟩

theorem letter_facts {k : Char} (h : Letter k) : ¬ Digit k ∧ k ≠ '.' ∧ k ≠ '!' ∧ ¬ (k = '-' ∨ k = '_' ∨ k = '.') := by
  refine ⟨fun hd => digit_letter hd h, ?_, ?_, ?_⟩
  · rintro rfl; revert h; unfold Letter; decide
  · rintro rfl; revert h; unfold Letter; decide
  · rintro (rfl | rfl | rfl) <;> revert h <;> unfold Letter <;> decide

theorem sep_facts {k : Char} (h : SepChar k) : ¬ Digit k ∧ k ≠ '!' ∧ k ≠ 'l' ∧ k ≠ 'e' ∧ k ≠ 'v' ∧ k ≠ 'c' := by
  unfold Digit
  rcases h with rfl | rfl | rfl <;> decide

/-- A word with or without number, behind a separator or not. -/
theorem tagged_shape {w t rest : Str} {n : Nat} (h : Tagged w t n) : ∃ s u, Sep s ∧ t ++ rest = s ++ (w ++ u) ∧ (Safe rest → Safe u) := by
  cases h with
  | number h1 h2 h3 =>
    rename_i s s' d
    refine ⟨s, s' ++ (d ++ rest), h1, by simp, fun _ => ?_⟩
    obtain ⟨k, q, rfl, hk⟩ := decimal_head h3
    intro c' r' e'
    rcases h2 with rfl | ⟨m, hm, rfl⟩
    · injection e' with e' _
      subst e'
      refine ⟨?_, ?_, ?_, ?_⟩ <;> exact digit_ne hk (by unfold Digit; decide)
    · injection e' with e' _
      subst e'
      exact (sep_facts hm).2.2
  | plain h1 => exact ⟨_, rest, h1, by simp, id⟩

theorem shape_ends {s w u : Str} {k : Char} {r : Str} (hs : Sep s) (hw : w = k :: r) (hk : Letter k) :
    Ends (s ++ (w ++ u)) ∧ dropSep (s ++ (w ++ u)) = w ++ u := by
  subst hw
  obtain ⟨f1, f2, f3, f4⟩ := letter_facts hk
  refine ⟨?_, dropSep_sep hs (dropSep_letter hk)⟩
  rcases hs with rfl | ⟨c, hc, rfl⟩
  · exact ⟨fun a b e => by injection e with e _; exact e ▸ f1, fun a e => by injection e with e _; exact absurd e f2,
      fun a e => by injection e with e _; exact f3 e⟩
  · obtain ⟨g1, g2, _⟩ := sep_facts hc
    refine ⟨fun a b e => by injection e with e _; exact e ▸ g1, fun a e => ?_, fun a e => by injection e with e _; exact g2 e⟩
    injection e with _ e
    subst e
    intro a b e
    injection e with e _
    exact e ▸ f1

theorem shape_mid {s w u : Str} {k : Char} {r : Str} (hs : Sep s) (hw : w = k :: r) (hk : Letter k)
    (hn : k ≠ 'l' ∧ k ≠ 'e' ∧ k ≠ 'v' ∧ k ≠ 'c') : Mid (s ++ (w ++ u)) := by
  obtain ⟨h1, h2⟩ := shape_ends (u := u) hs hw hk
  subst hw
  obtain ⟨f1, f2, f3, f4⟩ := letter_facts hk
  refine ⟨h1, ?_, ?_, ?_⟩
  · rcases hs with rfl | ⟨c, hc, rfl⟩
    · exact fun a b e => by injection e with e _; exact e ▸ hn
    · exact fun a b e => by injection e with e _; exact e ▸ (sep_facts hc).2.2
  · rw [h2]; exact fun a b e => by injection e with e _; exact e ▸ f1
  · rw [h2]; exact fun a b e => by injection e with e _; exact e ▸ f4

/-! ### Parts -/

theorem dev_read {d R : Str} {v : Option Nat} (h : DevText d v) (hb : Base R) :
    Mid (d ++ R) ∧ word preWords (dropSep (d ++ R)) = none ∧ word postWords (dropSep (d ++ R)) = none ∧
    ∀ x, x = d ++ R ∨ x = dropSep (d ++ R) → tagged devWords x = (v.map fun n => (g!"dev", n), R) := by
  cases h with
  | none =>
    refine ⟨hb.mid, ?_, ?_, fun x hx => ?_⟩
    · exact word_none preWords_letters (by rw [List.nil_append, hb.none]; exact hb.letter)
    · exact word_none postWords_letters (by rw [List.nil_append, hb.none]; exact hb.letter)
    · have : x = R := by
        rcases hx with h | h
        · exact h
        · rw [h]; exact hb.none
      subst this
      exact tagged_none (word_none devWords_letters (by rw [hb.none]; exact hb.letter))
  | some ht =>
    obtain ⟨s, u, hs, e, _⟩ := tagged_shape (rest := R) ht
    have hl : Letter 'd' := by unfold Letter; decide
    have hm := shape_mid (u := u) hs (w := g!"dev") rfl hl (by decide)
    have hd := (shape_ends (u := u) hs (w := g!"dev") rfl hl).2
    rw [← e] at hm hd
    refine ⟨hm, by rw [hd]; rfl, by rw [hd]; rfl, fun x hx => ?_⟩
    have hx' : dropSep x = dropSep (d ++ R) := by
      rcases hx with h | h
      · rw [h]
      · rw [h]; exact hm.idem
    rcases tagged_read ht ⟨_, _, rfl, hl⟩ (fun rest _ => devWord_read rest) hb.mid.safe hb.mid.ends.digit hx' with ⟨h, _⟩ | ⟨_, h⟩
    · exact h
    · have := h hb.mid.soft
      rw [hb.none] at this
      exact this

theorem postPart_tagged {x : Str} (h : ∀ r, x = '-' :: r → NoDigit r) : postPart x = tagged postWords x := by
  unfold postPart
  split
  · rename_i r
    rw [if_neg]
    rw [takeWhile_digits (h r rfl)]
    simp
  · rfl

/-- The number of a post release without a word. -/
def Dash (q : Str) : Prop := ∃ d, q = '-' :: d ∧ ∃ n, Decimal d n

theorem post_read {q R : Str} {v : Option Nat} (h : PostText q v) (hm : Mid R) (h1 : word preWords (dropSep R) = none)
    (h2 : word postWords (dropSep R) = none) :
    Ends (q ++ R) ∧ Safe (q ++ R) ∧ (¬ Dash q → Mid (q ++ R)) ∧ word preWords (dropSep (q ++ R)) = none ∧
    ∀ x, x = q ++ R ∨ (x = dropSep (q ++ R) ∧ ¬ Dash q) → ∃ y, (y = R ∨ y = dropSep R) ∧ postPart x = (v.map fun n => (g!"post", n), y) := by
  cases h with
  | none =>
    refine ⟨hm.ends, hm.safe, fun _ => hm, h1, fun x hx => ⟨x, hx.imp id And.left, ?_⟩⟩
    have key : dropSep x = dropSep R ∧ ∀ r, x = '-' :: r → NoDigit r := by
      rcases hx with h | ⟨h, _⟩
      · refine ⟨by rw [h]; rfl, fun r e => ?_⟩
        have := hm.soft
        rw [← show x = R from h, e] at this
        exact this
      · refine ⟨by rw [h]; exact hm.idem, fun r e => ?_⟩
        rw [h] at e
        exact absurd (.inl rfl) (hm.fixed '-' r e)
    rw [postPart_tagged key.2, tagged_none (by rw [key.1]; exact h2)]
    rfl
  | dash hd =>
    rename_i d n
    obtain ⟨c, r, rfl, hc⟩ := decimal_head hd
    have hdash : Dash ('-' :: (c :: r)) := ⟨_, rfl, _, hd⟩
    refine ⟨⟨fun a b e => ?_, fun a e => ?_, fun a e => ?_⟩, fun a b e => ?_, fun h => absurd hdash h, ?_, fun x hx => ?_⟩
    · injection e with e _; subst e; unfold Digit; decide
    · injection e with e _; exact absurd e (by decide)
    · injection e with e _; exact absurd e (by decide)
    · injection e with e _; subst e; decide
    · exact word_none preWords_letters fun a b e => by
        have e : c :: (r ++ R) = a :: b := e
        injection e with e _
        exact e ▸ digit_letter hc
    · rcases hx with h | ⟨_, h⟩
      · refine ⟨R, .inl rfl, ?_⟩
        obtain ⟨d1, d2, d3⟩ := decimal_read hd hm.ends.digit
        subst h
        show (if (c :: r ++ R).takeWhile isDigit ≠ [] then
          (some (g!"post", decimal ((c :: r ++ R).takeWhile isDigit)), (c :: r ++ R).dropWhile isDigit) else _) = _
        rw [if_pos (by rw [d1]; simp), d1, d2, d3]
        rfl
      · exact absurd hdash h
  | some hw ht =>
    rename_i w n
    obtain ⟨s, u, hs, e, hu⟩ := tagged_shape (rest := R) ht
    obtain ⟨k, r, hk, hl, hn⟩ : ∃ k r, w = k :: r ∧ Letter k ∧ (k ≠ 'l' ∧ k ≠ 'e' ∧ k ≠ 'v' ∧ k ≠ 'c') := by
      rcases hw with rfl | rfl | rfl <;> exact ⟨_, _, rfl, by unfold Letter; decide, by decide⟩
    have hm' := shape_mid (u := u) hs hk hl hn
    have hd := (shape_ends (u := u) hs hk hl).2
    rw [← e] at hm' hd
    refine ⟨hm'.ends, hm'.safe, fun _ => hm', ?_, fun x hx => ?_⟩
    · rw [hd]
      have hu := hu hm.safe
      rcases hw with rfl | rfl | rfl
      · rfl
      · rfl
      · cases u with
        | nil => rfl
        | cons a b =>
          have := (hu a b rfl).2.2.2
          simp [word, preWords, hasPrefix, List.isPrefixOf, this.symm]
    · have hx' : dropSep x = dropSep (q ++ R) := by
        rcases hx with h | ⟨h, _⟩
        · rw [h]
        · rw [h]; exact hm'.idem
      have hp : postPart x = tagged postWords x := by
        apply postPart_tagged
        intro r' e'
        have := hm'.soft
        rw [← hx', e'] at this
        exact this
      rw [hp]
      rcases tagged_read ht ⟨k, r, hk, hl⟩ (fun rest hs => postWord_read hw hs) hm.safe hm.ends.digit hx' with ⟨h, _⟩ | ⟨_, h⟩
      · exact ⟨R, .inl rfl, h⟩
      · exact ⟨dropSep R, .inr rfl, h hm.soft⟩

theorem pre_read {p q R : Str} {v : Option (Phase × Nat)} (h : PreText p v) (he : Ends (q ++ R)) (hs : Safe (q ++ R))
    (hm : ¬ Dash q → Mid (q ++ R)) (hw : word preWords (dropSep (q ++ R)) = none) (hc : Clear p q) :
    Ends (p ++ (q ++ R)) ∧ ∃ y, (y = q ++ R ∨ (y = dropSep (q ++ R) ∧ ¬ Dash q)) ∧
      tagged preWords (p ++ (q ++ R)) = (v.map fun x => (letter x.1, x.2), y) := by
  cases h with
  | none => exact ⟨he, _, .inl rfl, tagged_none hw⟩
  | some hp ht =>
    rename_i w ph n
    obtain ⟨s, u, hs', e, hu⟩ := tagged_shape (rest := q ++ R) ht
    obtain ⟨k, r, hk, hl⟩ : ∃ k r, w = k :: r ∧ Letter k := by
      cases hp <;> exact ⟨_, _, rfl, by unfold Letter; decide⟩
    refine ⟨by rw [e]; exact (shape_ends hs' hk hl).1, ?_⟩
    rcases tagged_read (rest := q ++ R) ht ⟨k, r, hk, hl⟩ (fun rest hs => preWord_read hp hs) hs he.digit rfl with ⟨h, _⟩ | ⟨⟨s0, h0⟩, h⟩
    · exact ⟨_, .inl rfl, h⟩
    · have hnd : ¬ Dash q := by
        intro hd
        rcases hc hd with h | ⟨t', c, h, hdig⟩
        · rw [h0, hk] at h; simp at h
        · have hlast : w.getLast? = some c := by
            have := congrArg List.getLast? (h0.symm.trans h)
            rw [List.getLast?_append, List.getLast?_append] at this
            have hne : w ≠ [] := by rw [hk]; simp
            rw [List.getLast?_eq_some_getLast hne] at this ⊢
            simpa using this
          cases hp <;> simp at hlast <;> subst hlast <;> revert hdig <;> unfold Digit <;> decide
      exact ⟨_, .inr ⟨rfl, hnd⟩, h (hm hnd).soft⟩

end Osv.Pypi
