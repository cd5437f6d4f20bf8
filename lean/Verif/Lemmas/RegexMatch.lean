import Verif.Lemmas.Regex
/-!
# What the expressions match

Inversion of `Matches`, and expressions anchored at both ends.
-/
namespace Osv.Re
open Osv

variable {bol : Bool} {k k' : Caps} {x rest : Str}

theorem matches_eps : Matches eps bol k x rest k' ↔ x = [] ∧ k' = k :=
  ⟨fun h => (by cases h; exact ⟨rfl, rfl⟩), fun ⟨h1, h2⟩ => (by subst h1 h2; exact .eps)⟩

theorem matches_cls {p : Char → Bool} : Matches (cls p) bol k x rest k' ↔ ∃ c, x = [c] ∧ p c = true ∧ k' = k :=
  ⟨fun h => (by cases h with | cls h => exact ⟨_, rfl, h, rfl⟩),
   fun ⟨c, h1, h, h2⟩ => (by subst h1 h2; exact .cls h)⟩

theorem matches_ch {c : Char} : Matches (ch c) bol k x rest k' ↔ x = [c] ∧ k' = k := by
  unfold ch
  rw [matches_cls]
  constructor
  · rintro ⟨d, rfl, h, rfl⟩
    simp at h
    exact ⟨by rw [h], rfl⟩
  · rintro ⟨rfl, rfl⟩
    exact ⟨c, rfl, by simp, rfl⟩

theorem matches_seq {a b : Re} : Matches (seq a b) bol k x rest k' ↔
    ∃ y z k₁, x = y ++ z ∧ Matches a bol k y (z ++ rest) k₁ ∧ Matches b (bol && y.isEmpty) k₁ z rest k' :=
  ⟨fun h => (by cases h with | seq h1 h2 => exact ⟨_, _, _, rfl, h1, h2⟩),
   fun ⟨y, z, k₁, e, h1, h2⟩ => (by subst e; exact .seq h1 h2)⟩

theorem matches_alt {a b : Re} : Matches (alt a b) bol k x rest k' ↔
    Matches a bol k x rest k' ∨ Matches b bol k x rest k' :=
  ⟨fun h => (by cases h with | altL h => exact Or.inl h | altR h => exact Or.inr h),
   fun h => h.elim .altL .altR⟩

theorem matches_opt {a : Re} : Matches (opt a) bol k x rest k' ↔
    Matches a bol k x rest k' ∨ (x = [] ∧ k' = k) := by
  unfold opt
  rw [matches_alt, matches_eps]

theorem matches_cap {n : Nat} {a : Re} : Matches (cap n a) bol k x rest k' ↔
    ∃ k₁, Matches a bol k x rest k₁ ∧ k' = (n, x) :: k₁ :=
  ⟨fun h => (by cases h with | cap h => exact ⟨_, h, rfl⟩), fun ⟨k₁, h, e⟩ => (by subst e; exact .cap h)⟩

theorem matches_bot : Matches bot bol k x rest k' ↔ bol = true ∧ x = [] ∧ k' = k :=
  ⟨fun h => (by cases h; exact ⟨rfl, rfl, rfl⟩), fun ⟨h1, h2, h3⟩ => (by subst h1 h2 h3; exact .bot)⟩

theorem matches_eot : Matches eot bol k x rest k' ↔ x = [] ∧ rest = [] ∧ k' = k :=
  ⟨fun h => (by cases h; exact ⟨rfl, rfl, rfl⟩), fun ⟨h1, h2, h3⟩ => (by subst h1 h2 h3; exact .eot)⟩

theorem matches_star_cls_sound {r : Re} {bol : Bool} {k k' : Caps} {x rest : Str} (h : Matches r bol k x rest k') :
    ∀ g p, r = star g (cls p) → (∀ c ∈ x, p c = true) ∧ k' = k := by
  induction h with
  | starNil => intro g p _; exact ⟨by simp, rfl⟩
  | starCons hne h1 h2 _ ih2 =>
    intro g p e
    cases e
    obtain ⟨c, rfl, hc, rfl⟩ := matches_cls.1 h1
    obtain ⟨h3, rfl⟩ := ih2 _ _ rfl
    refine ⟨?_, rfl⟩
    intro d hd
    rcases List.mem_append.1 hd with hd | hd
    · simp at hd; rw [hd]; exact hc
    · exact h3 d hd
  | _ => intro g p e; cases e

theorem matches_star_cls {g : Bool} {p : Char → Bool} : Matches (star g (cls p)) bol k x rest k' ↔
    (∀ c ∈ x, p c = true) ∧ k' = k := by
  constructor
  · intro h; exact matches_star_cls_sound h g p rfl
  · rintro ⟨h, rfl⟩
    induction x generalizing bol with
    | nil => exact .starNil
    | cons c x ih => exact .starCons (x := [c]) (by simp) (.cls (h c (by simp))) (ih (fun d hd => h d (by simp [hd])))

theorem matches_plus_cls {p : Char → Bool} : Matches (plus (cls p)) bol k x rest k' ↔
    x ≠ [] ∧ (∀ c ∈ x, p c = true) ∧ k' = k := by
  unfold plus
  rw [matches_seq]
  constructor
  · rintro ⟨y, z, k₁, rfl, h1, h2⟩
    obtain ⟨c, rfl, hc, rfl⟩ := matches_cls.1 h1
    obtain ⟨h3, rfl⟩ := matches_star_cls.1 h2
    refine ⟨by simp, ?_, rfl⟩
    intro d hd
    simp at hd
    rcases hd with rfl | hd
    · exact hc
    · exact h3 d hd
  · rintro ⟨hne, h, rfl⟩
    cases x with
    | nil => exact absurd rfl hne
    | cons c x =>
      exact ⟨[c], x, k', rfl, .cls (h c (by simp)), matches_star_cls.2 ⟨fun d hd => h d (by simp [hd]), rfl⟩⟩

theorem matches_lit {w : Str} : Matches (lit w) bol k x rest k' ↔ x = w ∧ k' = k := by
  induction w generalizing bol k x rest with
  | nil => exact matches_eps
  | cons c w ih =>
    cases w with
    | nil => exact matches_ch
    | cons d w =>
      rw [lit, matches_seq]
      · constructor
        · rintro ⟨y, z, k₁, rfl, h1, h2⟩
          obtain ⟨rfl, rfl⟩ := matches_ch.1 h1
          obtain ⟨rfl, rfl⟩ := ih.1 h2
          exact ⟨rfl, rfl⟩
        · rintro ⟨rfl, rfl⟩
          exact ⟨[c], d :: w, k', rfl, matches_ch.2 ⟨rfl, rfl⟩, ih.2 ⟨rfl, rfl⟩⟩
      · simp

theorem matches_cat_cons {a : Re} {l : List Re} : Matches (cat (a :: l)) bol k x rest k' ↔
    ∃ y z k₁, x = y ++ z ∧ Matches a bol k y (z ++ rest) k₁ ∧ Matches (cat l) (bol && y.isEmpty) k₁ z rest k' := by
  cases l with
  | nil =>
    show Matches a bol k x rest k' ↔ _
    simp only [cat, matches_eps]
    constructor
    · intro h; exact ⟨x, [], k', by simp, by simpa using h, rfl, rfl⟩
    · rintro ⟨y, z, k₁, rfl, h, rfl, rfl⟩; simpa using h
  | cons b l => exact matches_seq

/-- A sequence is matched in two parts. -/
theorem matches_cat_append {l m : List Re} : Matches (cat (l ++ m)) bol k x rest k' ↔
    ∃ y z k₁, x = y ++ z ∧ Matches (cat l) bol k y (z ++ rest) k₁ ∧ Matches (cat m) (bol && y.isEmpty) k₁ z rest k' := by
  induction l generalizing bol k x with
  | nil =>
    rw [List.nil_append]
    simp only [cat, matches_eps]
    constructor
    · intro h; exact ⟨[], x, k, rfl, ⟨rfl, rfl⟩, by simpa using h⟩
    · rintro ⟨y, z, k₁, rfl, ⟨rfl, rfl⟩, h⟩; simpa using h
  | cons a l ih =>
    rw [List.cons_append, matches_cat_cons]
    constructor
    · rintro ⟨y, z, k₁, rfl, h1, h2⟩
      obtain ⟨u, v, k₂, rfl, h3, h4⟩ := ih.1 h2
      refine ⟨y ++ u, v, k₂, by simp, matches_cat_cons.2 ⟨y, u, k₁, rfl, by simpa using h1, h3⟩, ?_⟩
      cases y <;> cases u <;> simpa using h4
    · rintro ⟨y, z, k₁, rfl, h1, h2⟩
      obtain ⟨u, v, k₂, rfl, h3, h4⟩ := matches_cat_cons.1 h1
      refine ⟨u, v ++ z, k₂, by simp, by simpa using h3, ih.2 ⟨v, z, k₁, rfl, h4, ?_⟩⟩
      cases u <;> cases v <;> simpa using h2

/-- A sequence that ends with `$` matches up to the end of the text. -/
theorem cat_eot {l : List Re} (hl : l.getLast? = some eot) (h : Matches (cat l) bol k x rest k') : rest = [] := by
  obtain ⟨m, rfl⟩ : ∃ m, l = m ++ [eot] := by
    rw [List.getLast?_eq_some_iff] at hl
    exact hl
  obtain ⟨_, _, _, _, _, h2⟩ := matches_cat_append.1 h
  exact (matches_eot.1 h2).2.1

/-- A sequence that starts with `^` matches at the beginning of the text. -/
theorem cat_bot {l : List Re} (hl : l.head? = some bot) (h : Matches (cat l) bol k x rest k') : bol = true := by
  cases l with
  | nil => cases hl
  | cons a l =>
    cases hl
    obtain ⟨_, _, _, _, h1, _⟩ := matches_cat_cons.1 h
    exact (matches_bot.1 h1).1

/-- A sequence from `^` to `$` matches whole texts. -/
theorem cat_whole {l : List Re} (h1 : l.head? = some bot) (h2 : l.getLast? = some eot) :
    ∀ bol k x rest k', Matches (cat l) bol k x rest k' → bol = true ∧ rest = [] :=
  fun _ _ _ _ _ h => ⟨cat_bot h1 h, cat_eot h2 h⟩

/-- An expression that can only match a whole text: searching tries the whole text. -/
theorem find_whole {r : Re} (hr : ∀ bol k x rest k', Matches r bol k x rest k' → bol = true ∧ rest = []) (s : Str) :
    (∀ f, find r s = some f → Matches r true [] s [] f.caps) ∧
    (find r s = none → ∀ k, ¬ Matches r true [] s [] k) := by
  constructor
  · intro f hf
    obtain ⟨e, hm⟩ := findFrom_sound r true s f hf
    obtain ⟨h1, h2⟩ := hr _ _ _ _ _ hm
    simp at h1
    rw [h1, h2] at e hm
    simp at e hm
    rw [e]; exact hm
  · intro hf k hm
    exact findFrom_none r true s hf [] s [] k (by simp) (by simpa using hm)

/-- An expression that can only match at the beginning of a text. -/
theorem find_start {r : Re} (hr : ∀ bol k x rest k', Matches r bol k x rest k' → bol = true) (s : Str) :
    (∀ f, find r s = some f → f.pre = [] ∧ s = f.matched ++ f.post ∧ Matches r true [] f.matched f.post f.caps) ∧
    (find r s = none → ∀ x rest k, s = x ++ rest → ¬ Matches r true [] x rest k) := by
  constructor
  · intro f hf
    obtain ⟨e, hm⟩ := findFrom_sound r true s f hf
    have h1 := hr _ _ _ _ _ hm
    simp at h1
    rw [h1] at e hm
    simp at e hm
    exact ⟨h1, e, hm⟩
  · intro hf x rest k e hm
    exact findFrom_none r true s hf [] x rest k (by simpa using e) (by simpa using hm)

end Osv.Re
