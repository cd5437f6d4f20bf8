import Verif.Spec.ModText
import Verif.Model.ModFile
import Verif.Lemmas.Str
/-! # Versions of Go modules -/
namespace Osv.Semver
open Str Spec Spec.ModText

theorem digit_iff {c : Char} : isDigit c = true ↔ Digit c := by simp [isDigit, Digit]

theorem identChar_iff {c : Char} :
    isIdentChar c = true ↔ Digit c ∨ ('A' ≤ c ∧ c ≤ 'Z') ∨ ('a' ≤ c ∧ c ≤ 'z') ∨ c = '-' := by
  simp only [isIdentChar, Bool.or_eq_true, Bool.and_eq_true, decide_eq_true_eq, beq_iff_eq, digit_iff]
  constructor
  · rintro (((h | h) | h) | h)
    · exact .inr (.inl h)
    · exact .inr (.inr (.inl h))
    · exact .inl h
    · exact .inr (.inr (.inr h))
  · rintro (h | h | h | h)
    · exact .inl (.inr h)
    · exact .inl (.inl (.inl h))
    · exact .inl (.inl (.inr h))
    · exact .inr h

theorem takeWhile_append_stop {p : Char → Bool} {t r : Str} (ht : ∀ c ∈ t, p c = true) (hr : ∀ c u, r = c :: u → p c = false) :
    (t ++ r).takeWhile p = t ∧ (t ++ r).dropWhile p = r := by
  induction t with
  | nil =>
    cases r with
    | nil => simp
    | cons c u => simp [hr c u rfl]
  | cons a t ih =>
    obtain ⟨h1, h2⟩ := ih fun c hc => ht c (by simp [hc])
    simp [ht a (by simp), h1, h2]

theorem takeWhile_all (p : Char → Bool) (s : Str) : ∀ c ∈ s.takeWhile p, p c = true := by
  induction s with
  | nil => simp
  | cons a s ih =>
    intro c hc
    by_cases h : p a = true
    · rw [List.takeWhile_cons_of_pos h] at hc
      rcases List.mem_cons.1 hc with rfl | hc
      · exact h
      · exact ih c hc
    · rw [List.takeWhile_cons_of_neg h] at hc; simp at hc

theorem dropWhile_head (p : Char → Bool) (s : Str) : ∀ c u, s.dropWhile p = c :: u → p c = false := by
  induction s with
  | nil => simp
  | cons a s ih =>
    intro c u h
    by_cases hp : p a = true
    · rw [List.dropWhile_cons_of_pos hp] at h; exact ih c u h
    · rw [List.dropWhile_cons_of_neg hp] at h
      injection h with h1 h2
      subst h1; simpa using hp

theorem hasPrefix_one (t : Str) (c : Char) : hasPrefix t [c] = true ↔ ∃ r, t = c :: r := by
  rw [hasPrefix_iff]; rfl

theorem number_iff {t : Str} (hd : ∀ c ∈ t, Digit c) : Number t ↔ t ≠ [] ∧ ¬ ((hasPrefix t g!"0" && decide (t.length ≠ 1)) = true) := by
  simp only [Bool.and_eq_true, decide_eq_true_eq, hasPrefix_one]
  constructor
  · rintro ⟨h1, _, h2⟩
    refine ⟨h1, ?_⟩
    rintro ⟨⟨r, e⟩, h3⟩
    have := h2 r e
    subst this
    subst e
    exact h3 rfl
  · rintro ⟨h1, h2⟩
    refine ⟨h1, hd, ?_⟩
    intro r e
    subst e
    by_cases hr : r = []
    · exact hr
    · refine absurd ⟨⟨r, rfl⟩, ?_⟩ h2
      intro hl
      simp at hl
      exact hr hl

theorem int_iff {v t r : Str} : int v = some (t, r) ↔ v = t ++ r ∧ Number t ∧ ∀ c u, r = c :: u → ¬ Digit c := by
  have hall := takeWhile_all isDigit v
  have hhead := dropWhile_head isDigit v
  have happ := List.takeWhile_append_dropWhile (p := isDigit) (l := v)
  unfold int
  dsimp only
  constructor
  · intro h
    split at h
    · simp at h
    · split at h
      · simp at h
      · rename_i h1 h2
        injection h with h
        injection h with ht hr
        subst ht hr
        refine ⟨happ.symm, (number_iff fun c hc => digit_iff.1 (hall c hc)).2 ⟨h1, h2⟩, ?_⟩
        intro c u e hd
        have := hhead c u e
        rw [digit_iff.2 hd] at this
        simp at this
  · rintro ⟨e, hn, hr⟩
    subst e
    obtain ⟨h1, h2⟩ := takeWhile_append_stop (p := isDigit) (t := t) (r := r) (fun c hc => digit_iff.2 (hn.2.1 c hc))
      (fun c u e => by
        have := hr c u e
        rw [← digit_iff] at this
        simpa using this)
    rw [h1, h2]
    have := (number_iff hn.2.1).1 hn
    rw [if_neg this.1, if_neg this.2]

theorem idents_iff {stop : Char → Bool} {bad : Str → Bool} (hstop : ∀ c, stop c = true → isIdentChar c = false ∧ c ≠ '.') :
    ∀ (s cur r : Str), idents stop bad cur s = some r ↔ ∃ i ids, s = i ++ List.flatMap ('.' :: ·) ids ++ r ∧
      (∀ c ∈ i, isIdentChar c = true) ∧ cur.reverse ++ i ≠ [] ∧ bad (cur.reverse ++ i) = false ∧
      (∀ j ∈ ids, j ≠ [] ∧ (∀ c ∈ j, isIdentChar c = true) ∧ bad j = false) ∧ (∀ c u, r = c :: u → stop c = true) := by
  intro s
  induction s with
  | nil =>
    intro cur r
    unfold idents
    constructor
    · intro h
      split at h
      · simp at h
      · rename_i hb
        injection h with h
        subst h
        simp only [Bool.or_eq_true, decide_eq_true_eq, not_or] at hb
        exact ⟨[], [], rfl, by simp, by simpa using hb.1, by simpa using hb.2, by simp, by simp⟩
    · rintro ⟨i, ids, e, h1, h2, h3, h4, h5⟩
      have e' := e.symm
      simp only [List.append_eq_nil_iff] at e'
      obtain ⟨⟨rfl, e2⟩, rfl⟩ := e'
      simp only [List.append_nil, ne_eq, List.reverse_eq_nil_iff] at h2 h3
      rw [if_neg]
      simp [h2, h3]
  | cons c s ih =>
    intro cur r
    unfold idents
    by_cases hs : stop c = true
    · obtain ⟨hc1, hc2⟩ := hstop c hs
      rw [if_pos hs]
      constructor
      · intro h
        split at h
        · simp at h
        · rename_i hb
          injection h with h
          subst h
          simp only [Bool.or_eq_true, decide_eq_true_eq, not_or] at hb
          exact ⟨[], [], rfl, by simp, by simpa using hb.1, by simpa using hb.2, by simp, by
            intro d u e; injection e with e1 e2; subst e1; exact hs⟩
      · rintro ⟨i, ids, e, h1, h2, h3, h4, h5⟩
        cases i with
        | cons d i =>
          injection e with e1 e2
          subst e1
          rw [h1 c (by simp)] at hc1; simp at hc1
        | nil =>
          cases ids with
          | cons j ids =>
            simp only [List.nil_append, List.flatMap_cons, List.cons_append] at e
            injection e with e1 e2
            exact absurd e1 hc2
          | nil =>
            simp only [List.flatMap_nil, List.append_nil, List.nil_append] at e
            subst e
            simp only [List.append_nil, ne_eq, List.reverse_eq_nil_iff] at h2 h3
            rw [if_neg]
            simp [h2, h3]
    · rw [if_neg hs]
      by_cases hd : (c == '.') = true
      · rw [if_pos hd]
        have hd' : c = '.' := by simpa using hd
        subst hd'
        constructor
        · intro h
          split at h
          · simp at h
          · rename_i hb
            simp only [Bool.or_eq_true, decide_eq_true_eq, not_or] at hb
            obtain ⟨i, ids, e, h1, h2, h3, h4, h5⟩ := (ih [] r).1 h
            refine ⟨[], i :: ids, by simp [e], by simp, by simpa using hb.1, by simpa using hb.2, ?_, h5⟩
            intro j hj
            rcases List.mem_cons.1 hj with rfl | hj
            · exact ⟨by simpa using h2, h1, by simpa using h3⟩
            · exact h4 j hj
        · rintro ⟨i, ids, e, h1, h2, h3, h4, h5⟩
          cases i with
          | cons d i =>
            injection e with e1 e2
            subst e1
            exact absurd (h1 '.' (by simp)) (by decide)
          | nil =>
            cases ids with
            | nil =>
              simp only [List.flatMap_nil, List.append_nil, List.nil_append] at e
              exact absurd (h5 _ _ e.symm) hs
            | cons j ids =>
              simp only [List.nil_append, List.flatMap_cons, List.cons_append] at e
              injection e with _ e2
              simp only [List.append_nil, ne_eq, List.reverse_eq_nil_iff] at h2 h3
              rw [if_neg (by simp [h2, h3])]
              have hj := h4 j (by simp)
              exact (ih [] r).2 ⟨j, ids, e2, hj.2.1, by simpa using hj.1, by simpa using hj.2.2,
                fun k hk => h4 k (by simp [hk]), h5⟩
      · rw [if_neg hd]
        have hd' : c ≠ '.' := by simpa using hd
        by_cases hi : isIdentChar c = true
        · rw [if_pos hi, ih]
          constructor
          · rintro ⟨i, ids, e, h1, h2, h3, h4, h5⟩
            refine ⟨c :: i, ids, by simp [e], ?_, by simp, by simpa using h3, h4, h5⟩
            intro d hd
            rcases List.mem_cons.1 hd with rfl | hd
            · exact hi
            · exact h1 d hd
          · rintro ⟨i, ids, e, h1, h2, h3, h4, h5⟩
            cases i with
            | cons d i =>
              injection e with e1 e2
              subst e1
              exact ⟨i, ids, e2, fun x hx => h1 x (by simp [hx]), by simp, by simpa using h3, h4, h5⟩
            | nil =>
              cases ids with
              | nil =>
                simp only [List.flatMap_nil, List.append_nil, List.nil_append] at e
                exact absurd (h5 _ _ e.symm) hs
              | cons j ids =>
                simp only [List.nil_append, List.flatMap_cons, List.cons_append] at e
                injection e with e1 _
                exact absurd e1 hd'
        · rw [if_neg hi]
          constructor
          · simp
          · rintro ⟨i, ids, e, h1, h2, h3, h4, h5⟩
            cases i with
            | cons d i =>
              injection e with e1 e2
              subst e1
              exact absurd (h1 c (by simp)) hi
            | nil =>
              cases ids with
              | nil =>
                simp only [List.flatMap_nil, List.append_nil, List.nil_append] at e
                exact absurd (h5 _ _ e.symm) hs
              | cons j ids =>
                simp only [List.nil_append, List.flatMap_cons, List.cons_append] at e
                injection e with e1 _
                exact absurd e1 hd'

theorem badNum_iff {j : Str} (hne : j ≠ []) : isBadNum j = false ↔ ((∀ c ∈ j, Digit c) → Number j) := by
  unfold isBadNum
  constructor
  · intro h hd
    rw [number_iff hd]
    refine ⟨hne, ?_⟩
    intro hz
    have hall : j.all isDigit = true := List.all_eq_true.2 fun c hc => digit_iff.2 (hd c hc)
    rw [hall] at h
    simp only [Bool.and_eq_true, decide_eq_true_eq] at hz
    have hlen : j.length > 1 := by
      have : j.length ≠ 0 := by simpa using hne
      omega
    rw [hz.1] at h
    simp [hlen] at h
  · intro h
    by_cases hall : j.all isDigit = true
    · have hd : ∀ c ∈ j, Digit c := fun c hc => digit_iff.1 (List.all_eq_true.1 hall c hc)
      have := ((number_iff hd).1 (h hd)).2
      by_cases hz : hasPrefix j g!"0" = true
      · rw [hz] at this
        have hl : j.length = 1 := by simpa using this
        simp [hl]
      · simp [hz]
    · simp [hall]

theorem pre_iff {s r : Str} : idents (· == '+') isBadNum [] s = some r ↔
    ∃ pre, '-' :: s = pre ++ r ∧ pre ≠ [] ∧ Labels '-' (fun i => (∀ c ∈ i, Digit c) → Number i) pre ∧ ∀ c u, r = c :: u → c = '+' := by
  rw [idents_iff (by intro c hc; have : c = '+' := by simpa using hc
                     subst this; decide)]
  constructor
  · rintro ⟨i, ids, e, h1, h2, h3, h4, h5⟩
    simp only [List.reverse_nil, List.nil_append] at h2 h3
    refine ⟨'-' :: (i ++ ids.flatMap ('.' :: ·)), by simp [e], by simp, .some ?_, fun c u e => by simpa using h5 c u e⟩
    intro j hj
    rcases List.mem_cons.1 hj with rfl | hj
    · exact ⟨⟨h2, fun c hc => identChar_iff.1 (h1 c hc)⟩, (badNum_iff h2).1 h3⟩
    · have := h4 j hj
      exact ⟨⟨this.1, fun c hc => identChar_iff.1 (this.2.1 c hc)⟩, (badNum_iff this.1).1 this.2.2⟩
  · rintro ⟨pre, e, hne, hl, hr⟩
    cases hl with
    | none => exact absurd rfl hne
    | @some i ids hj =>
      injection e with _ e
      have hi := hj i (by simp)
      refine ⟨i, ids, e, fun c hc => identChar_iff.2 (hi.1.2 c hc), by simpa using hi.1.1, by simpa using (badNum_iff hi.1.1).2 hi.2, ?_,
        fun c u e => by simp [hr c u e]⟩
      intro j hj'
      have := hj j (by simp [hj'])
      exact ⟨this.1.1, fun c hc => identChar_iff.2 (this.1.2 c hc), (badNum_iff this.1.1).2 this.2⟩

theorem build_iff {s : Str} : idents (fun _ => false) (fun _ => false) [] s = some [] ↔
    Labels '+' (fun _ => True) ('+' :: s) := by
  rw [idents_iff (by simp)]
  constructor
  · rintro ⟨i, ids, e, h1, h2, h3, h4, h5⟩
    simp only [List.reverse_nil, List.nil_append, List.append_nil] at h2 h3 e
    rw [e]
    refine .some ?_
    intro j hj
    rcases List.mem_cons.1 hj with rfl | hj
    · exact ⟨⟨h2, fun c hc => identChar_iff.1 (h1 c hc)⟩, trivial⟩
    · have := h4 j hj
      exact ⟨⟨this.1, fun c hc => identChar_iff.1 (this.2.1 c hc)⟩, trivial⟩
  · intro hl
    generalize hx : ('+' :: s) = x at hl
    cases hl with
    | none => simp at hx
    | @some i ids hj =>
      injection hx with _ e
      have hi := hj i (by simp)
      refine ⟨i, ids, by simp [e], fun c hc => identChar_iff.2 (hi.1.2 c hc), by simpa using hi.1.1, rfl, ?_, by simp⟩
      intro j hj'
      have := hj j (by simp [hj'])
      exact ⟨this.1.1, fun c hc => identChar_iff.2 (this.1.2 c hc), rfl⟩

theorem idents_false_nil (bad : Str → Bool) : ∀ (s cur r : Str), idents (fun _ => false) bad cur s = some r → r = [] := by
  intro s
  induction s with
  | nil =>
    intro cur r h
    unfold idents at h
    split at h <;> simp_all
  | cons c s ih =>
    intro cur r h
    unfold idents at h
    simp only [Bool.false_eq_true, if_false] at h
    split at h
    · split at h
      · simp at h
      · exact ih _ _ h
    · split at h
      · exact ih _ _ h
      · simp at h

theorem labels_head {sign : Char} {ok : Str → Prop} {s : Str} (h : Labels sign ok s) : s = [] ∨ ∃ t, s = sign :: t := by
  cases h with
  | none => exact .inl rfl
  | some => exact .inr ⟨_, rfl⟩

/-- What is left after the prerelease. -/
theorem tail_rest {v rest : Str} (h : afterPre v = some rest) :
    ∃ pre, v = pre ++ rest ∧ Labels '-' (fun i => (∀ c ∈ i, Digit c) → Number i) pre := by
  unfold afterPre at h
  split at h
  · obtain ⟨pre, e, _, hl, _⟩ := pre_iff.1 h
    exact ⟨pre, e, hl⟩
  · injection h with h
    subst h
    exact ⟨[], rfl, .none⟩

theorem tail_iff {m v : Str} {p : Parts} : tail m v = some p ↔ ∃ pre build, v = pre ++ build ∧
    Labels '-' (fun i => (∀ c ∈ i, Digit c) → Number i) pre ∧ Labels '+' (fun _ => True) build ∧
    p = { major := m, prerelease := pre, build := build } := by
  constructor
  · intro h
    unfold tail at h
    split at h
    · simp at h
    · rename_i rest hrest
      obtain ⟨pre, e, hl⟩ := tail_rest hrest
      split at h
      · simp at h
      · rename_i last hlast
        split at h
        · simp at h
        · rename_i hne
          have hne : last = [] := by simpa using hne
          subst hne
          injection h with h
          refine ⟨pre, rest, e, hl, ?_, ?_⟩
          · unfold afterBuild at hlast
            split at hlast
            · exact build_iff.1 hlast
            · injection hlast with hlast
              subst hlast
              exact .none
          · rw [← h, e]
            simp
  · rintro ⟨pre, build, e, hl, hb, rfl⟩
    unfold tail
    have h1 : afterPre v = some build := by
      unfold afterPre
      by_cases hp : pre = []
      · subst hp
        simp only [List.nil_append] at e
        subst e
        split
        · rcases labels_head hb with h | ⟨t, h⟩ <;> simp at h
        · rfl
      · rcases labels_head hl with h | ⟨t, h⟩
        · exact absurd h hp
        · subst h
          subst e
          simp only [List.cons_append]
          exact pre_iff.2 ⟨'-' :: t, rfl, hp, hl, fun c u e => by
            rcases labels_head hb with h | ⟨t, h⟩
            · subst h; simp at e
            · subst h; injection e with e1 _; exact e1.symm⟩
    have h2 : afterBuild build = some [] := by
      unfold afterBuild
      rcases labels_head hb with h | ⟨t, h⟩
      · subst h; rfl
      · subst h
        exact build_iff.2 hb
    rw [h1]
    dsimp only
    rw [h2]
    simp [e]

theorem int_number {t : Str} (h : Number t) : int t = some (t, []) := int_iff.2 ⟨by simp, h, by simp⟩

theorem int_number_dot {t u : Str} {c : Char} (h : Number t) (hc : ¬ Digit c) : int (t ++ c :: u) = some (t, c :: u) :=
  int_iff.2 ⟨rfl, h, by intro d w e; injection e with e1 _; subst e1; exact hc⟩

theorem labels_stop {sign : Char} {ok : Str → Prop} {s : Str} (h : Labels sign ok s) (hs : ¬ Digit sign) : ∀ c u, s = c :: u → ¬ Digit c := by
  intro c u e
  rcases labels_head h with h | ⟨t, h⟩
  · subst h; simp at e
  · subst h; injection e with e1 _; subst e1; exact hs

theorem not_digit {c : Char} (h : isDigit c = false) : ¬ Digit c := by
  rw [← digit_iff, h]; simp

theorem int_dot {t u : Str} (h : Number t) : int (t ++ '.' :: u) = some (t, '.' :: u) := int_number_dot h (not_digit rfl)

theorem release_parse {t m v b : Str} (h : Release t m v b) : ∃ p, parse t = some p ∧ p.major = m ∧ p.build = b ∧ canonical t = v := by
  cases h with
  | major hm =>
    have : parse ('v' :: m) = some { major := m, short := g!".0.0" } := by
      simp only [parse, int_number hm, bind, Option.bind]
    refine ⟨_, this, rfl, rfl, ?_⟩
    unfold canonical
    rw [this]
    simp
  | @minor m n hm hn =>
    have : parse ('v' :: m ++ '.' :: n) = some { major := m, short := g!".0" } := by
      simp only [parse, List.cons_append, int_dot hm, int_number hn, bind, Option.bind]
    refine ⟨_, this, rfl, rfl, ?_⟩
    unfold canonical
    rw [this]
    simp
  | @full m n p pre build hm hn hp hpre hb =>
    have hstop : ∀ c u, pre ++ b = c :: u → ¬ Digit c := by
      intro c u e
      cases hpre with
      | none => exact labels_stop hb (not_digit rfl) c u e
      | some _ => injection e with e1 _; subst e1; exact not_digit rfl
    have : parse ('v' :: m ++ '.' :: n ++ '.' :: p ++ pre ++ b) = some { major := m, prerelease := pre, build := b } := by
      have e : ('v' :: m ++ '.' :: n ++ '.' :: p ++ pre ++ b) = 'v' :: (m ++ '.' :: (n ++ '.' :: (p ++ (pre ++ b)))) := by simp
      rw [e]
      simp only [parse, int_dot hm, int_dot hn, bind, Option.bind]
      rw [int_iff.2 ⟨rfl, hp, hstop⟩]
      exact tail_iff.2 ⟨pre, b, rfl, hpre, hb, rfl⟩
    refine ⟨_, this, rfl, rfl, ?_⟩
    unfold canonical
    rw [this]
    dsimp only
    by_cases hb0 : b = []
    · subst hb0; simp
    · rw [if_pos hb0]
      have e : ('v' :: m ++ '.' :: n ++ '.' :: p ++ pre ++ b).length - b.length = ('v' :: m ++ '.' :: n ++ '.' :: p ++ pre).length := by
        simp only [List.length_append]; omega
      rw [e, List.take_left]

theorem parse_release {t : Str} {p : Parts} (h : parse t = some p) : Release t p.major (canonical t) p.build := by
  have key : ∃ v, Release t p.major v p.build := by
    unfold parse at h
    split at h
    · rename_i v0
      simp only [bind, Option.bind] at h
      split at h
      · simp at h
      · rename_i x hx
        obtain ⟨m, r⟩ := x
        obtain ⟨e1, hm, _⟩ := int_iff.1 hx
        dsimp only at h
        split at h
        · injection h with h
          subst h
          subst e1
          rw [List.append_nil]
          exact ⟨_, .major hm⟩
        · rename_i _ v1
          split at h
          · simp at h
          · rename_i x hx2
            obtain ⟨n, r2⟩ := x
            obtain ⟨e2, hn, _⟩ := int_iff.1 hx2
            dsimp only at h
            split at h
            · injection h with h
              subst h
              subst e1
              subst e2
              rw [List.append_nil]
              exact ⟨_, .minor hm hn⟩
            · rename_i _ v2
              split at h
              · simp at h
              · rename_i x hx3
                obtain ⟨q, r3⟩ := x
                obtain ⟨e3, hq, _⟩ := int_iff.1 hx3
                dsimp only at h
                obtain ⟨pre, build, e4, hpre, hb, rfl⟩ := tail_iff.1 h
                subst e1
                subst e2
                subst e3
                subst e4
                refine ⟨'v' :: m ++ '.' :: n ++ '.' :: q ++ pre, ?_⟩
                have := Release.full hm hn hq hpre hb
                have e : ('v' :: (m ++ '.' :: (n ++ '.' :: (q ++ (pre ++ build))))) = ('v' :: m ++ '.' :: n ++ '.' :: q ++ pre ++ build) := by simp
                rw [e]
                exact this
            · simp at h
        · simp at h
    · simp at h
  obtain ⟨v, hv⟩ := key
  obtain ⟨_, _, _, _, e⟩ := release_parse hv
  rw [e]
  exact hv

theorem release_unique {t m v b m' v' b' : Str} (h : Release t m v b) (h' : Release t m' v' b') : m = m' ∧ v = v' ∧ b = b' := by
  obtain ⟨p, h1, h2, h3, h4⟩ := release_parse h
  obtain ⟨p', h1', h2', h3', h4'⟩ := release_parse h'
  rw [h1] at h1'
  injection h1' with h1'
  subst h1'
  exact ⟨h2.symm.trans h2', h4.symm.trans h4', h3.symm.trans h3'⟩

theorem release_ne {t m v b : Str} (h : Release t m v b) : v ≠ [] := by
  cases h <;> simp

theorem labels_no_plus {s : Str} {ok : Str → Prop} (h : Labels '-' ok s) : '+' ∉ s := by
  cases h with
  | none => simp
  | @some i ids hj =>
    have hid : ∀ j, Ident j → '+' ∉ j := by
      intro j hj hm
      have := hj.2 '+' hm
      revert this
      unfold Digit
      decide
    intro hm
    rcases List.mem_cons.1 hm with h | h
    · revert h; decide
    · rcases List.mem_append.1 h with h | h
      · exact hid _ (hj i (by simp)).1 h
      · obtain ⟨j, hj', hm'⟩ := List.mem_flatMap.1 h
        rcases List.mem_cons.1 hm' with h | h
        · revert h; decide
        · exact hid _ (hj j (by simp [hj'])).1 h

theorem number_no_plus {t : Str} (h : Number t) : '+' ∉ t := by
  intro hm
  have := h.2.1 '+' hm
  revert this
  unfold Digit
  decide

theorem release_no_plus {t m v b : Str} (h : Release t m v b) : '+' ∉ v := by
  cases h with
  | major hm => simp [number_no_plus hm]
  | minor hm hn => simp [number_no_plus hm, number_no_plus hn]
  | full hm hn hp hpre hb => simp [number_no_plus hm, number_no_plus hn, number_no_plus hp, labels_no_plus hpre]

/-- A version without its build is a version. -/
theorem release_again {t m v b : Str} (h : Release t m v b) : Release v m v [] := by
  have z : Number g!"0" := ⟨by simp, by simp [Digit], by intro r e; injection e with _ e; exact e.symm⟩
  cases h with
  | major hm => simpa using Release.full hm z z .none .none
  | minor hm hn => simpa using Release.full hm hn z .none .none
  | full hm hn hp hpre hb => simpa using Release.full hm hn hp hpre .none

theorem release_build {t m v b : Str} (h : Release t m v b) (hb : b ≠ []) : t = v ++ b := by
  cases h with
  | major hm => exact absurd rfl hb
  | minor hm hn => exact absurd rfl hb
  | full hm hn hp hpre hb => rfl

theorem moduleVersion_canonical {t m c : Str} (h : Canonical t m c) : moduleVersion t = c ∧ c ≠ [] ∧ major c = 'v' :: m ∧
    (build c = g!"+incompatible" ↔ ∃ u, c = u ++ g!"+incompatible") := by
  cases h with
  | plain hr hb =>
    obtain ⟨p, h1, h2, h3, h4⟩ := release_parse hr
    obtain ⟨p', h1', h2', h3', h4'⟩ := release_parse (release_again hr)
    refine ⟨?_, release_ne hr, ?_, ?_⟩
    · have e : build t = p.build := by unfold build; rw [h1]
      rw [h3] at e
      unfold moduleVersion
      rw [if_neg (by rw [e]; exact hb), h4]
    · unfold major; rw [h1']; dsimp only; rw [h2']
    · unfold build; rw [h1']; dsimp only; rw [h3']
      constructor
      · intro h; simp at h
      · rintro ⟨u, e⟩
        exact absurd (by rw [e]; simp) (release_no_plus hr)
  | incompatible hr =>
    obtain ⟨p, h1, h2, h3, h4⟩ := release_parse hr
    have ht := release_build hr (by simp)
    refine ⟨?_, by simp, ?_, ?_⟩
    · have e : build t = g!"+incompatible" := by unfold build; rw [h1]; exact h3
      unfold moduleVersion
      rw [if_pos e, h4]
    · unfold major; rw [← ht, h1]; dsimp only; rw [h2]
    · unfold build; rw [← ht, h1]; dsimp only
      exact ⟨fun _ => ⟨_, ht⟩, fun _ => h3⟩

theorem canonical_of_moduleVersion {t c : Str} (h : moduleVersion t = c) (hc : c ≠ []) : ∃ m, Canonical t m c := by
  unfold moduleVersion build at h
  cases hp : parse t with
  | none =>
    rw [hp] at h
    dsimp only at h
    rw [if_neg (by simp)] at h
    unfold canonical at h
    rw [hp] at h
    exact absurd h.symm hc
  | some p =>
    rw [hp] at h
    dsimp only at h
    have hr := parse_release hp
    split at h
    · rename_i hb
      rw [hb] at hr
      rw [← h]
      exact ⟨_, .incompatible hr⟩
    · rename_i hb
      rw [← h]
      exact ⟨_, .plain hr hb⟩

/-! ## Major versions in paths -/

/-- The major part without the mark of unstable versions. -/
def strip (pm : Str) : Str := if hasPrefix pm g!".v" && hasSuffix pm g!"-unstable" then trimSuffix pm g!"-unstable" else pm

/-- A major version as a part of a path. -/
def encode : Major → Str
  | .none => []
  | .slash n => g!"/v" ++ n
  | .dot n => g!".v" ++ n

theorem checkPathMajor_eq (v pm : Str) : checkPathMajor v pm =
    if hasPrefix v g!"v0.0.0-" && decide (strip pm = g!".v1") then true
    else if strip pm = [] then major v = g!"v0" || major v = g!"v1" || build v = g!"+incompatible"
    else major v = (strip pm).drop 1 := rfl

theorem checkPathMajor_iff {t m v s : Str} {pm : Major} (hc : Canonical t m v) (hs : strip s = encode pm) :
    checkPathMajor v s = true ↔ Belongs v m pm := by
  obtain ⟨_, _, hm, hb⟩ := moduleVersion_canonical hc
  rw [checkPathMajor_eq, hs, hm]
  cases pm with
  | none =>
    rw [if_neg (by simp [encode]), if_pos (show encode .none = [] from rfl)]
    constructor
    · intro h
      simp only [Bool.or_eq_true, decide_eq_true_eq] at h
      refine .unversioned ?_
      rcases h with (h | h) | h
      · injection h with _ h; exact .inl h
      · injection h with _ h; exact .inr (.inl h)
      · exact .inr (.inr (hb.1 h))
    · intro h
      cases h with
      | unversioned h =>
        simp only [Bool.or_eq_true, decide_eq_true_eq]
        rcases h with h | h | h
        · exact .inl (.inl (by rw [h]))
        · exact .inl (.inr (by rw [h]))
        · exact .inr (hb.2 h)
  | slash n =>
    rw [if_neg (by simp [encode]), if_neg (by simp [encode])]
    constructor
    · intro h
      have h : 'v' :: m = 'v' :: n := by simpa [encode] using h
      injection h with _ h
      subst h
      exact .slash
    · intro h
      cases h
      simp [encode]
  | dot n =>
    by_cases ho : (hasPrefix v g!"v0.0.0-" && decide (encode (.dot n) = g!".v1")) = true
    · rw [if_pos ho]
      simp only [Bool.and_eq_true, decide_eq_true_eq, hasPrefix_iff] at ho
      obtain ⟨⟨u, hu⟩, hn⟩ := ho
      have hn : n = g!"1" := by simpa [encode] using hn
      subst hn
      exact ⟨fun _ => .old hu, fun _ => rfl⟩
    · rw [if_neg ho, if_neg (by simp [encode])]
      constructor
      · intro h
        have h : 'v' :: m = 'v' :: n := by simpa [encode] using h
        injection h with _ h
        subst h
        exact .dot
      · intro h
        cases h with
        | dot => simp [encode]
        | old hu =>
          refine absurd ?_ ho
          simp only [Bool.and_eq_true, decide_eq_true_eq, hasPrefix_iff]
          exact ⟨⟨_, hu⟩, rfl⟩

theorem scanBack {p : Char → Bool} {a d : Str} (hd : ∀ c ∈ d, p c = true) (ha : ∀ x c, a = x ++ [c] → p c = false) :
    ((a ++ d).reverse.takeWhile p).reverse = d ∧ (a ++ d).reverse.dropWhile p = a.reverse := by
  have := takeWhile_append_stop (p := p) (t := d.reverse) (r := a.reverse) (fun c hc => hd c (by simpa using hc))
    (fun c u e => ha u.reverse c (by have := congrArg List.reverse e; simpa using this))
  rw [List.reverse_append, this.1, this.2]
  simp

/-- What scanning backwards finds. -/
theorem scanned (p : Char → Bool) (s : Str) : ∃ a d, s = a ++ d ∧ (∀ c ∈ d, p c = true) ∧ (∀ x c, a = x ++ [c] → p c = false) ∧
    (s.reverse.takeWhile p).reverse = d ∧ s.reverse.dropWhile p = a.reverse := by
  refine ⟨(s.reverse.dropWhile p).reverse, (s.reverse.takeWhile p).reverse, ?_, ?_, ?_, rfl, by simp⟩
  · have := congrArg List.reverse (List.takeWhile_append_dropWhile (p := p) (l := s.reverse))
    rw [List.reverse_append, List.reverse_reverse] at this
    exact this.symm
  · intro c hc
    exact takeWhile_all p _ c (by simpa using hc)
  · intro x c e
    refine dropWhile_head p s.reverse c x.reverse ?_
    have := congrArg List.reverse e
    simpa using this

theorem not_hasSuffix_unstable {path pre n : Str} (hd : ∀ c ∈ n, Digit c) (hn : n ≠ []) (e : path = pre ++ n) :
    hasSuffix path g!"-unstable" = false := by
  rw [Bool.eq_false_iff]
  intro h
  obtain ⟨t, ht⟩ := (hasSuffix_iff _ _).1 h
  have h1 : path.getLast? = some 'e' := by rw [ht]; simp
  obtain ⟨x, c, rfl⟩ : ∃ x c, n = x ++ [c] := ⟨n.dropLast, n.getLast hn, (List.dropLast_concat_getLast hn).symm⟩
  rw [e] at h1
  simp at h1
  have := hd c (by simp)
  rw [h1] at this
  exact not_digit rfl this

theorem strip_dot (n : Str) (hd : ∀ c ∈ n, Digit c) : strip (g!".v" ++ n) = g!".v" ++ n ∧ strip (g!".v" ++ n ++ g!"-unstable") = g!".v" ++ n := by
  constructor
  · unfold strip
    rw [if_neg]
    intro h
    simp only [Bool.and_eq_true] at h
    by_cases hn : n = []
    · subst hn; revert h; decide
    · rw [not_hasSuffix_unstable hd hn rfl] at h
      simp at h
  · unfold strip
    rw [if_pos, trimSuffix_append]
    rw [hasSuffix_append, List.append_assoc, hasPrefix_append]
    rfl

theorem number_zero {n : Str} (hd : ∀ c ∈ n, Digit c) (hn : n ≠ []) :
    Number n ↔ ¬ ((hasPrefix n g!"0" && decide (n ≠ g!"0")) = true) := by
  simp only [Bool.and_eq_true, decide_eq_true_eq, hasPrefix_one]
  constructor
  · rintro ⟨_, _, h⟩ ⟨⟨r, e⟩, h2⟩
    have := h r e
    subst this
    exact h2 e
  · intro h
    refine ⟨hn, hd, ?_⟩
    intro r e
    by_cases hr : r = []
    · exact hr
    · refine absurd ⟨⟨r, e⟩, ?_⟩ h
      rw [e]
      simpa using hr

theorem gopkgMajor_of {path pre n u : Str} (hd : ∀ c ∈ n, Digit c)
    (hu : (u = [] ∧ n ≠ []) ∨ u = g!"-unstable") (e : path = pre ++ g!".v" ++ n ++ u) :
    gopkgMajor path = if (hasPrefix (n ++ u) g!"0" && decide (n ++ u ≠ g!"0")) = true then none else some (g!".v" ++ n ++ u) := by
  have hp : gopkgMajor path = gopkgTail (pre ++ g!".v" ++ n) u := by
    unfold gopkgMajor
    rcases hu with ⟨rfl, hn⟩ | rfl
    · rw [if_neg (by rw [not_hasSuffix_unstable (pre := pre ++ g!".v") hd hn (by simpa using e)]; simp), e]
      simp
    · rw [e, if_pos (hasSuffix_append _ _)]
      have : (pre ++ g!".v" ++ n ++ g!"-unstable").length - 9 = (pre ++ g!".v" ++ n).length := by
        simp only [List.length_append]
        simp
      rw [this, List.take_left]
  have hscan := scanBack (p := isDigit) (a := pre ++ g!".v") (d := n) (fun c hc => digit_iff.2 (hd c hc)) (by
    intro x c e
    have h1 : (pre ++ g!".v").getLast? = some 'v' := by simp
    rw [e] at h1
    simp at h1
    subst h1
    rfl)
  rw [hp]
  unfold gopkgTail
  rw [hscan.1, hscan.2]
  have : (pre ++ g!".v").reverse = 'v' :: '.' :: pre.reverse := by simp
  rw [this]
  dsimp only
  rw [if_neg (by
    rcases hu with ⟨rfl, hn⟩ | rfl
    · have : n.length ≠ 0 := by simpa using hn
      simp; omega
    · simp)]
  have h1 : (g!".v" ++ n ++ u).drop 2 = n ++ u := by simp
  rw [h1]
  have h2 : (decide (g!".v" ++ n ++ u ≠ g!".v0")) = decide (n ++ u ≠ g!"0") := by simp
  rw [h2]
  rfl

theorem gopkgTail_some {p u s : Str} (h : gopkgTail p u = some s) : ∃ pre n, p = pre ++ g!".v" ++ n ∧ (∀ c ∈ n, Digit c) ∧
    ¬ (n = [] ∧ u = []) := by
  unfold gopkgTail at h
  obtain ⟨a, d, e, h1, h2, h3, h4⟩ := scanned isDigit p
  rw [h3, h4] at h
  split at h
  · rename_i w hw
    have ha : a = w.reverse ++ g!".v" := by
      have := congrArg List.reverse hw
      simpa using this
    dsimp only at h
    by_cases hlen : (g!".v" ++ d ++ u).length ≤ 2
    · rw [if_pos hlen] at h; simp at h
    · refine ⟨w.reverse, d, by rw [e, ha], fun c hc => digit_iff.1 (h1 c hc), ?_⟩
      rintro ⟨rfl, rfl⟩
      simp at hlen
  · simp at h

theorem gopkgMajor_some {path s : Str} (h : gopkgMajor path = some s) : ∃ pre n u, path = pre ++ g!".v" ++ n ++ u ∧
    (∀ c ∈ n, Digit c) ∧ ((u = [] ∧ n ≠ []) ∨ u = g!"-unstable") := by
  unfold gopkgMajor at h
  by_cases hs : hasSuffix path g!"-unstable" = true
  · rw [if_pos hs] at h
    obtain ⟨t, ht⟩ := (hasSuffix_iff _ _).1 hs
    have : path.take (path.length - 9) = t := by
      rw [ht]
      have : (t ++ g!"-unstable").length - 9 = t.length := by simp
      rw [this, List.take_left]
    rw [this] at h
    obtain ⟨pre, n, e, hd, _⟩ := gopkgTail_some h
    exact ⟨pre, n, g!"-unstable", by rw [ht, e], hd, .inr rfl⟩
  · rw [if_neg hs] at h
    obtain ⟨pre, n, e, hd, hne⟩ := gopkgTail_some h
    exact ⟨pre, n, [], by simpa using e, hd, .inl ⟨rfl, fun hn => hne ⟨hn, rfl⟩⟩⟩

/-- The end of a path that looks like a major version. -/
def isTail (c : Char) : Bool := isDigit c || c == '.'

theorem pathMajor_eq (path : Str) : pathMajor path = if hasPrefix path g!"gopkg.in/" then gopkgMajor path else
    match path.reverse.dropWhile isTail with
    | 'v' :: '/' :: _ =>
      if (path.reverse.takeWhile isTail).reverse = [] then some []
      else if contains (path.reverse.takeWhile isTail).reverse g!"." || hasPrefix (path.reverse.takeWhile isTail).reverse g!"0" ||
        decide ((path.reverse.takeWhile isTail).reverse = g!"1") then none
      else some (g!"/v" ++ (path.reverse.takeWhile isTail).reverse)
    | _ => some [] := rfl

theorem isTail_iff {c : Char} : isTail c = true ↔ Digit c ∨ c = '.' := by simp [isTail, digit_iff]

theorem number_slash {n : Str} (hn : n ≠ []) (ht : ∀ c ∈ n, isTail c = true) :
    (Number n ∧ n ≠ g!"0" ∧ n ≠ g!"1") ↔ (contains n g!"." || hasPrefix n g!"0" || decide (n = g!"1")) = false := by
  simp only [Bool.or_eq_false_iff, decide_eq_false_iff_not]
  constructor
  · rintro ⟨h1, h2, h3⟩
    refine ⟨⟨?_, ?_⟩, h3⟩
    · rw [Bool.eq_false_iff]
      intro hc
      obtain ⟨a, b, e⟩ := (contains_iff _ _).1 hc
      exact not_digit (c := '.') rfl (h1.2.1 '.' (by rw [e]; simp))
    · rw [Bool.eq_false_iff]
      intro hc
      obtain ⟨r, e⟩ := (hasPrefix_one _ _).1 hc
      have := h1.2.2 r e
      subst this
      exact h2 e
  · rintro ⟨⟨h1, h2⟩, h3⟩
    have hd : ∀ c ∈ n, Digit c := by
      intro c hc
      rcases isTail_iff.1 (ht c hc) with h | h
      · exact h
      · subst h
        obtain ⟨a, b, e, _⟩ := List.eq_append_cons_of_mem hc
        have : contains n g!"." = true := (contains_iff _ _).2 ⟨a, b, by simp [e]⟩
        rw [this] at h1
        simp at h1
    refine ⟨⟨hn, hd, ?_⟩, ?_, h3⟩
    · intro r e
      rw [Bool.eq_false_iff] at h2
      exact absurd ((hasPrefix_one _ _).2 ⟨r, e⟩) h2
    · rintro rfl
      simp [hasPrefix] at h2

theorem pathMajor_of {path : Str} {pm : Major} (h : PathMajor path pm) : ∃ s, pathMajor path = some s ∧ strip s = encode pm := by
  rw [pathMajor_eq]
  cases h with
  | @gopkg rest pre n h1 h2 hn =>
    rw [if_pos ((hasPrefix_iff _ _).2 ⟨rest, h1⟩), gopkgMajor_of (u := []) hn.2.1 (.inl ⟨rfl, hn.1⟩) (by simpa using h2)]
    simp only [List.append_nil]
    rw [if_neg ((number_zero hn.2.1 hn.1).1 hn)]
    exact ⟨_, rfl, (strip_dot n hn.2.1).1⟩
  | @unstable rest pre n h1 h2 hd hz =>
    rw [if_pos ((hasPrefix_iff _ _).2 ⟨rest, h1⟩), gopkgMajor_of (u := g!"-unstable") hd (.inr rfl) h2, if_neg]
    · exact ⟨_, rfl, (strip_dot n hd).2⟩
    · simp only [Bool.and_eq_true, not_and, hasPrefix_one]
      rintro ⟨r, e⟩
      cases n with
      | nil => injection e with e _; revert e; decide
      | cons c n =>
        injection e with e _
        subst e
        exact absurd rfl (hz n)
  | @slash pre n hg h2 hn h0 h1 =>
    rw [if_neg (by rw [hasPrefix_iff]; rintro ⟨t, e⟩; exact hg t e)]
    have hscan := scanBack (p := isTail) (a := pre ++ g!"/v") (d := n) (fun c hc => isTail_iff.2 (.inl (hn.2.1 c hc))) (by
      intro x c e
      have h1 : (pre ++ g!"/v").getLast? = some 'v' := by simp
      rw [e] at h1
      simp at h1
      subst h1
      rfl)
    rw [h2, hscan.1, hscan.2]
    have : (pre ++ g!"/v").reverse = 'v' :: '/' :: pre.reverse := by simp
    rw [this]
    have := (number_slash hn.1 (fun c hc => isTail_iff.2 (.inl (hn.2.1 c hc)))).1 ⟨hn, h0, h1⟩
    rw [if_neg hn.1, if_neg (by rw [this]; simp)]
    refine ⟨_, rfl, ?_⟩
    unfold strip
    rw [if_neg]
    · rfl
    · simp [hasPrefix]
  | none hg h2 =>
    rw [if_neg (by rw [hasPrefix_iff]; rintro ⟨t, e⟩; exact hg t e)]
    obtain ⟨a, d, e, ht, _, h3, h4⟩ := scanned isTail path
    rw [h3, h4]
    refine ⟨[], ?_, rfl⟩
    split
    · rename_i w hw
      have ha : a = w.reverse ++ g!"/v" := by
        have := congrArg List.reverse hw
        simpa using this
      by_cases hd : d = []
      · rw [if_pos hd]
      · obtain ⟨c, hc, h5, h6⟩ := h2 w.reverse d (by rw [e, ha]) hd
        rcases isTail_iff.1 (ht c hc) with h | h
        · exact absurd h h5
        · exact absurd h h6
    · rfl

theorem of_pathMajor {path s : Str} (h : pathMajor path = some s) : ∃ pm, PathMajor path pm ∧ strip s = encode pm := by
  have key : ∃ pm, PathMajor path pm := by
    rw [pathMajor_eq] at h
    split at h
    · rename_i hg
      obtain ⟨rest, hrest⟩ := (hasPrefix_iff _ _).1 hg
      obtain ⟨pre, n, u, e, hd, hu⟩ := gopkgMajor_some h
      rw [gopkgMajor_of hd hu e] at h
      split at h
      · simp at h
      · rename_i hz
        rcases hu with ⟨rfl, hn⟩ | rfl
        · simp only [List.append_nil] at hz e
          exact ⟨_, .gopkg hrest e ((number_zero hd hn).2 hz)⟩
        · refine ⟨_, .unstable hrest e hd ?_⟩
          rintro r rfl
          refine hz ?_
          simp [hasPrefix]
    · rename_i hg
      have hg' : ∀ rest, path ≠ g!"gopkg.in/" ++ rest := fun rest e => hg ((hasPrefix_iff _ _).2 ⟨rest, e⟩)
      obtain ⟨a, d, e, ht, ha', h3, h4⟩ := scanned isTail path
      rw [h3, h4] at h
      have hnone : (∀ w, a ≠ w ++ g!"/v") ∨ d = [] → PathMajor path .none := by
        intro hor
        refine .none hg' ?_
        intro pre n e' hne
        by_cases hall : ∀ c ∈ n, isTail c = true
        · have hs := scanBack (p := isTail) (a := pre ++ g!"/v") (d := n) hall (by
            intro x c e
            have h1 : (pre ++ g!"/v").getLast? = some 'v' := by simp
            rw [e] at h1
            simp at h1
            subst h1
            rfl)
          rw [← e'] at hs
          rw [h3, h4] at hs
          rcases hor with hor | hor
          · refine absurd ?_ (hor pre)
            have := congrArg List.reverse hs.2
            simpa using this
          · rw [hor] at hs
            exact absurd hs.1.symm hne
        · obtain ⟨c, hc⟩ := Classical.not_forall.1 hall
          have hc1 : c ∈ n := Classical.byContradiction fun hn => hc fun h => absurd h hn
          have hc2 : ¬ isTail c = true := fun hn => hc fun _ => hn
          rw [isTail_iff] at hc2
          exact ⟨c, hc1, fun h => hc2 (.inl h), fun h => hc2 (.inr h)⟩
      split at h
      · rename_i w hw
        have ha : a = w.reverse ++ g!"/v" := by
          have := congrArg List.reverse hw
          simpa using this
        split at h
        · rename_i hd
          exact ⟨_, hnone (.inr hd)⟩
        · rename_i hd
          split at h
          · simp at h
          · rename_i hz
            have := (number_slash hd ht).2 (by simpa using hz)
            exact ⟨_, .slash hg' (by rw [e, ha]) this.1 this.2.1 this.2.2⟩
      · rename_i hw
        refine ⟨_, hnone (.inl ?_)⟩
        rintro w rfl
        exact hw w.reverse (by simp)
  obtain ⟨pm, hpm⟩ := key
  obtain ⟨s', h1, h2⟩ := pathMajor_of hpm
  rw [h] at h1
  injection h1 with h1
  subst h1
  exact ⟨pm, hpm, h2⟩

end Osv.Semver
