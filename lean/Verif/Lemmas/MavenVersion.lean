import Verif.Model.MavenVersion
import Verif.Spec.MavenVersion
import Verif.Lemmas.Precedence
import Verif.Lemmas.CranVersion
import Verif.Lemmas.GemVersion
import Verif.Lemmas.PypiOrder
/-! # Versions of Java packages -/
namespace Osv.MavenVersion
open Str Semantic Spec.MavenVersion
open Spec.Precedence (Decimal NumbersText Before)
open Spec.ModText (Digit)

/-! ### Zeros at the end -/

def strip : List Nat → List Nat
  | [] => []
  | n :: r => if n = 0 ∧ strip r = [] then [] else n :: strip r

theorem strip_snoc_zero (ms : List Nat) : strip (ms ++ [0]) = strip ms := by
  induction ms with
  | nil => rfl
  | cons m ms ih => simp only [List.cons_append, strip, ih]

theorem strip_snoc_pos (ms : List Nat) {n : Nat} (h : n ≠ 0) : strip (ms ++ [n]) = ms ++ [n] := by
  induction ms with
  | nil => simp [strip, h]
  | cons m ms ih => simp [strip, ih]

theorem components_strip_left (a : List Nat) : ∀ b, cmpComponents (strip a) b = cmpComponents a b := by
  induction a with
  | nil => intro b; rfl
  | cons n r ih =>
    intro b
    unfold strip
    split
    · rename_i h
      obtain ⟨rfl, h⟩ := h
      rw [h] at ih
      cases b with
      | nil => rw [CranVersion.components_cons_nil, ← ih]; rfl
      | cons y b => rw [CranVersion.components_nil_cons, CranVersion.components_cons, ← ih]
    · cases b with
      | nil => rw [CranVersion.components_cons_nil, CranVersion.components_cons_nil, ih]
      | cons y b => rw [CranVersion.components_cons, CranVersion.components_cons, ih]

theorem components_strip_right (b : List Nat) : ∀ a, cmpComponents a (strip b) = cmpComponents a b := by
  induction b with
  | nil => intro a; rfl
  | cons n r ih =>
    intro a
    unfold strip
    split
    · rename_i h
      obtain ⟨rfl, h⟩ := h
      rw [h] at ih
      cases a with
      | nil => rw [CranVersion.components_nil_cons, ← ih]; rfl
      | cons y a => rw [CranVersion.components_cons_nil, CranVersion.components_cons, ← ih]
    · cases a with
      | nil => rw [CranVersion.components_nil_cons, CranVersion.components_nil_cons, ih]
      | cons y a => rw [CranVersion.components_cons, CranVersion.components_cons, ih]

theorem strip_strip (a : List Nat) : strip (strip a) = strip a := by
  induction a with
  | nil => rfl
  | cons n r ih =>
    by_cases h : n = 0 ∧ strip r = []
    · simp [strip, h]
    · have e : strip (n :: r) = n :: strip r := by simp [strip, h]
      rw [e, strip, ih, if_neg h]

/-! ### Comparing tokens -/

def dot (n : Nat) : Token := ⟨.dot, .number n⟩

theorem compare_same (t : Token) (v w : List Token) : compare (t :: v) (t :: w) = compare v w := by
  simp [compare, less]

theorem compare_differ {t u : Token} (h : t ≠ u) (v w : List Token) :
    compare (t :: v) (u :: w) = if tokenLess false t false u = true then -1 else 1 := by
  simp [compare, less, h]

theorem number_less (p : Prefix) (m n : Nat) (a b : Bool) : tokenLess a ⟨p, .number m⟩ b ⟨p, .number n⟩ = decide (m < n) := by
  simp [tokenLess]

theorem compare_numbers (p : Prefix) (m n : Nat) (v w : List Token) :
    compare (⟨p, .number m⟩ :: v) (⟨p, .number n⟩ :: w) = if cmpInt m n ≠ 0 then cmpInt m n else compare v w := by
  by_cases h : m = n
  · subst h
    rw [compare_same, cmpInt_total.refl]
    simp
  · rw [compare_differ (by simpa using h), number_less]
    unfold cmpInt
    split <;> split <;> simp_all <;> omega

/-- The tokens of phase and count. -/
def word : Phase → Str
  | .alpha => g!"alpha" | .beta => g!"beta" | .milestone => g!"milestone" | .rc => g!"rc" | .snapshot => g!"snapshot" | .release => []
  | .sp => g!"sp" | .other w => w | .revision => []

def tailTokens (p : Phase) (n : Nat) : List Token :=
  if p = .release then [] else if p = .revision then [⟨.dash, .number n⟩] else ⟨.dash, .word (word p)⟩ :: if n = 0 then [] else [⟨.dash, .number n⟩]

/-- What texts have. -/
structure Fine (p : Phase) (n : Nat) : Prop where
  release : p = .release → n = 0
  other : ∀ w, p = .other w → keywordOrder w = 7

def otherWord : Phase → Str
  | .other w => w
  | _ => []

def cmpPhase (x y : Phase) : Int := if cmpInt (rank x) (rank y) ≠ 0 then cmpInt (rank x) (rank y) else cmpStr (otherWord x) (otherWord y)

theorem word_order {p : Phase} {n : Nat} (h : Fine p n) (hr : p ≠ .revision) : keywordOrder (word p) = rank p := by
  cases p <;> first | exact h.other _ rfl | exact absurd rfl hr | rfl

theorem cmpPhase_eq (x y : Phase) : cmpPhase x y = 0 ↔ x = y := by
  unfold cmpPhase
  by_cases h : cmpInt (rank x) (rank y) = 0
  · rw [if_neg (by simpa using h)]
    have h := (cmpInt_eq _ _).mp h
    cases x <;> cases y <;> simp [rank] at h ⊢ <;> first | exact cmpStr_eq _ _ | rfl
  · rw [if_pos h]
    refine ⟨fun e => absurd e h, ?_⟩
    rintro rfl
    exact cmpInt_total.refl _

theorem word_less {p q : Phase} {m n : Nat} (h : Fine p m) (h' : Fine q n) (hr : p ≠ .revision) (hr' : q ≠ .revision) : wordLess (word p) (word q) = decide (cmpPhase p q < 0) := by
  unfold wordLess
  rw [word_order h hr, word_order h' hr']
  by_cases e : cmpInt (rank p) (rank q) = 0
  · rw [show cmpPhase p q = cmpStr (otherWord p) (otherWord q) from if_neg (not_not_intro e)]
    have e := (cmpInt_eq _ _).mp e
    cases p <;> cases q <;> simp [rank] at e ⊢ <;> first | rfl | decide
  · rw [show cmpPhase p q = cmpInt (rank p) (rank q) from if_pos e]
    have ne : rank p ≠ rank q := fun h => e (by rw [h]; exact cmpInt_total.refl _)
    rw [if_neg (by omega)]
    rw [decide_eq_decide, cmpInt_lt]
    omega

theorem word_inj {p q : Phase} {m n : Nat} (h : Fine p m) (h' : Fine q n) (hr : p ≠ .revision) (hr' : q ≠ .revision) (e : word p = word q) : p = q := by
  have r : rank p = rank q := by rw [← word_order h hr, ← word_order h' hr', e]
  cases p <;> cases q <;> simp [rank, word] at r e hr hr' ⊢
  exact e

theorem sign {c : Int} (h : c = -1 ∨ c = 0 ∨ c = 1) (h0 : c ≠ 0) : (if decide (c < 0) = true then (-1 : Int) else 1) = c := by
  rcases h with rfl | rfl | rfl <;> simp at h0 ⊢

theorem cmpInt_three (a b : Int) : cmpInt a b = -1 ∨ cmpInt a b = 0 ∨ cmpInt a b = 1 := by
  unfold cmpInt
  split
  · exact .inl rfl
  · split
    · exact .inr (.inr rfl)
    · exact .inr (.inl rfl)

theorem cmpStr_three : ∀ a b : Str, cmpStr a b = -1 ∨ cmpStr a b = 0 ∨ cmpStr a b = 1
  | [], [] => .inr (.inl rfl)
  | [], _ :: _ => .inl rfl
  | _ :: _, [] => .inr (.inr rfl)
  | a :: as, b :: bs => by
    unfold cmpStr
    split
    · exact .inl rfl
    · split
      · exact .inr (.inr rfl)
      · exact cmpStr_three as bs

theorem cmpPhase_three (x y : Phase) : cmpPhase x y = -1 ∨ cmpPhase x y = 0 ∨ cmpPhase x y = 1 := by
  unfold cmpPhase
  split
  · exact cmpInt_three _ _
  · exact cmpStr_three _ _

theorem tail_words {p q : Phase} {m n : Nat} (h : Fine p m) (h' : Fine q n) (hr : p ≠ .revision) (hr' : q ≠ .revision) :
    compare (tailTokens p m) (tailTokens q n) = if cmpPhase p q ≠ 0 then cmpPhase p q else cmpInt m n := by
  have wl := word_less h h' hr hr'
  unfold tailTokens
  rw [if_neg hr, if_neg hr']
  by_cases hp : p = .release
  · by_cases hq : q = .release
    · rw [if_pos hp, if_pos hq, h.release hp, h'.release hq, (cmpPhase_eq p q).mpr (hp.trans hq.symm)]
      rfl
    · have ne : cmpPhase p q ≠ 0 := fun e => hq ((cmpPhase_eq p q).mp e ▸ hp)
      rw [if_pos hp, if_neg hq, if_pos ne]
      have wne : word q ≠ [] := fun e => hq (word_inj h' (q := .release) (n := 0) ⟨fun _ => rfl, fun _ h => by cases h⟩ ‹_› (by simp) e)
      rw [hp] at wl
      have wl : wordLess [] (word q) = _ := wl
      rw [← hp] at wl
      have : (⟨.dash, .word []⟩ : Token) ≠ ⟨.dash, .word (word q)⟩ := fun e => wne (by injection e with _ e; injection e with e; exact e.symm)
      simp only [compare, less, lessLeft, nullToken, reduceCtorEq, if_false, if_neg this, tokenLess, if_true, wl]
      exact sign (cmpPhase_three _ _) ne
  · by_cases hq : q = .release
    · have ne : cmpPhase p q ≠ 0 := fun e => hp ((cmpPhase_eq p q).mp e ▸ hq)
      rw [if_neg hp, if_pos hq, if_pos ne]
      have wne : word p ≠ [] := fun e => hp (word_inj h (q := .release) (n := 0) ⟨fun _ => rfl, fun _ h => by cases h⟩ ‹_› (by simp) e)
      rw [hq] at wl
      have wl : wordLess (word p) [] = _ := wl
      rw [← hq] at wl
      have : (⟨.dash, .word (word p)⟩ : Token) ≠ ⟨.dash, .word []⟩ := fun e => wne (by injection e with _ e; injection e with e)
      simp only [compare, less, lessRight, nullToken, reduceCtorEq, if_false, if_neg this, tokenLess, if_true, wl]
      exact sign (cmpPhase_three _ _) ne
    · rw [if_neg hp, if_neg hq]
      by_cases e : p = q
      · subst e
        rw [compare_same, (cmpPhase_eq p p).mpr rfl]
        simp only [ne_eq, not_true_eq_false, if_false]
        by_cases hm : m = 0 <;> by_cases hn : n = 0
        · rw [hm, hn]; rfl
        · rw [if_pos hm, if_neg hn, hm]
          unfold cmpInt
          rw [if_pos (by omega)]
          rfl
        · rw [if_neg hm, if_pos hn, hn]
          unfold cmpInt
          rw [if_neg (by omega), if_pos (by omega)]
          rfl
        · rw [if_neg hm, if_neg hn, compare_numbers]
          split
          · rfl
          · rename_i h; exact (Decidable.not_not.mp h).symm
      · have ne : cmpPhase p q ≠ 0 := fun h => e ((cmpPhase_eq p q).mp h)
        rw [compare_differ (fun h0 => e (word_inj h h' hr hr' (by injection h0 with _ h0; injection h0))), if_pos ne]
        simp only [tokenLess, if_true, wl]
        exact sign (cmpPhase_three _ _) ne

theorem tail_compare {p q : Phase} {m n : Nat} (h : Fine p m) (h' : Fine q n) :
    compare (tailTokens p m) (tailTokens q n) = if cmpPhase p q ≠ 0 then cmpPhase p q else cmpInt m n := by
  by_cases hr : p = .revision
  · subst hr
    by_cases hr' : q = .revision
    · subst hr'
      show compare [⟨.dash, .number m⟩] [⟨.dash, .number n⟩] = _
      rw [compare_numbers, (cmpPhase_eq _ _).mpr rfl]
      simp only [ne_eq, not_true_eq_false, if_false]
      split
      · rfl
      · rename_i h; exact (Decidable.not_not.mp h).symm
    · have e : cmpPhase .revision q = 1 := by cases q <;> first | rfl | exact absurd rfl hr'
      rw [e, if_pos (by decide)]
      show compare [⟨.dash, .number m⟩] _ = _
      unfold tailTokens
      rw [if_neg hr']
      by_cases hq : q = .release
      · rw [if_pos hq]
        simp [compare, less, lessRight, nullToken, tokenLess]
      · rw [if_neg hq, compare_differ (by simp)]
        rfl
  · by_cases hr' : q = .revision
    · subst hr'
      have e : cmpPhase p .revision = -1 := by cases p <;> first | rfl | exact absurd rfl hr
      rw [e, if_pos (by decide)]
      show compare _ [⟨.dash, .number n⟩] = _
      unfold tailTokens
      rw [if_neg hr]
      by_cases hp : p = .release
      · rw [if_pos hp]
        simp [compare, less, lessLeft, nullToken, tokenLess]
      · rw [if_neg hp, compare_differ (by simp)]
        rfl
    · exact tail_words h h' hr hr'

theorem left_ended : ∀ (b : List Nat) (x : List Token), strip b = b → b ≠ [] → lessLeft (b.map dot ++ x) = true
  | [], _, _, h => absurd rfl h
  | n :: r, x, hs, _ => by
    unfold strip at hs
    split at hs
    · cases hs
    · rename_i hn
      injection hs with _ hs
      by_cases h0 : n = 0
      · subst h0
        have hr : r ≠ [] := fun e => hn ⟨rfl, by rw [e]; rfl⟩
        have := left_ended r x hs hr
        simpa [lessLeft, nullToken, dot] using this
      · have : (⟨.dot, .number 0⟩ : Token) ≠ ⟨.dot, .number n⟩ := by simpa using fun h => h0 h.symm
        simp [lessLeft, nullToken, dot, this, tokenLess]
        omega

theorem right_ended : ∀ (b : List Nat) (x : List Token), strip b = b → b ≠ [] → lessRight (b.map dot ++ x) = false
  | [], _, _, h => absurd rfl h
  | n :: r, x, hs, _ => by
    unfold strip at hs
    split at hs
    · cases hs
    · rename_i hn
      injection hs with _ hs
      by_cases h0 : n = 0
      · subst h0
        have hr : r ≠ [] := fun e => hn ⟨rfl, by rw [e]; rfl⟩
        have := right_ended r x hs hr
        simpa [lessRight, nullToken, dot] using this
      · simp [lessRight, nullToken, dot, h0, tokenLess]

theorem components_ended : ∀ (b : List Nat), strip b = b → b ≠ [] → cmpComponents [] b = -1 ∧ cmpComponents b [] = 1
  | [], _, h => absurd rfl h
  | n :: r, hs, _ => by
    unfold strip at hs
    split at hs
    · cases hs
    · rename_i hn
      injection hs with _ hs
      rw [CranVersion.components_nil_cons, CranVersion.components_cons_nil]
      by_cases h0 : n = 0
      · subst h0
        have hr : r ≠ [] := fun e => hn ⟨rfl, by rw [e]; rfl⟩
        have := components_ended r hs hr
        simpa [cmpInt] using this
      · have : 0 < n := by omega
        have : ¬ ((n : Int) < 0) := by omega
        simp [cmpInt, *]

theorem tail_head {p : Phase} (n : Nat) (h : p ≠ .release) : ∃ v r, tailTokens p n = ⟨.dash, v⟩ :: r := by
  unfold tailTokens
  rw [if_neg h]
  split
  · exact ⟨_, _, rfl⟩
  · exact ⟨_, _, rfl⟩

theorem numbers_compare {p q : Phase} {m n : Nat} (h : Fine p m) (h' : Fine q n) : ∀ (a b : List Nat), strip a = a → strip b = b →
    compare (a.map dot ++ tailTokens p m) (b.map dot ++ tailTokens q n) =
      if cmpComponents a b ≠ 0 then cmpComponents a b else compare (tailTokens p m) (tailTokens q n)
  | [], [], _, _ => rfl
  | [], y :: b, _, hb => by
    rw [(components_ended _ hb (by simp)).1, if_pos (by simp)]
    have hl := left_ended _ (tailTokens q n) hb (by simp)
    by_cases hp : p = .release
    · have e : tailTokens p m = [] := by unfold tailTokens; rw [if_pos hp]
      rw [e]
      show compare [] (dot y :: _) = -1
      unfold compare less
      rw [if_neg (by simp)]
      exact if_pos hl
    · obtain ⟨v, r, e⟩ := tail_head m hp
      rw [e]
      show compare (_ :: _) (dot y :: _) = -1
      rw [compare_differ (by simp [dot])]
      cases v <;> rfl
  | x :: a, [], ha, _ => by
    rw [(components_ended _ ha (by simp)).2, if_pos (by simp)]
    have hl := right_ended _ (tailTokens p m) ha (by simp)
    by_cases hq : q = .release
    · have e : tailTokens q n = [] := by unfold tailTokens; rw [if_pos hq]
      rw [e]
      show compare (dot x :: _) [] = 1
      unfold compare less
      rw [if_neg (by simp)]
      exact if_neg (by rw [show lessRight (dot x :: _) = _ from hl]; simp)
    · obtain ⟨v, r, e⟩ := tail_head n hq
      rw [e]
      show compare (dot x :: _) (_ :: _) = 1
      rw [compare_differ (by simp [dot])]
      cases v <;> rfl
  | x :: a, y :: b, ha, hb => by
    have sa : strip a = a := by
      unfold strip at ha; split at ha
      · cases ha
      · injection ha
    have sb : strip b = b := by
      unfold strip at hb; split at hb
      · cases hb
      · injection hb
    have ih := numbers_compare h h' a b sa sb
    show compare (⟨.dot, .number x⟩ :: _) (⟨.dot, .number y⟩ :: _) = _
    rw [compare_numbers, CranVersion.components_cons]
    by_cases e : cmpInt x y = 0
    · simp only [e, ne_eq, not_true_eq_false, if_false]
      exact ih
    · simp [e]

/-! ### Texts -/

theorem runs_head (c : Char) (s : Str) : ∃ r rs, runs (c :: s) = (c :: r) :: rs := by
  unfold runs
  split
  · split
    · exact ⟨_, _, rfl⟩
    · exact ⟨_, _, rfl⟩
  · exact ⟨_, _, rfl⟩

theorem runs_uniform {k : Bool} : ∀ u : Str, u ≠ [] → (∀ c ∈ u, isDigit c = k) → runs u = [u]
  | [], h, _ => absurd rfl h
  | [c], _, _ => rfl
  | c :: d :: u, _, h => by
    have ih := runs_uniform (d :: u) (by simp) fun x hx => h x (List.mem_cons_of_mem _ hx)
    rw [runs, ih]
    dsimp only
    rw [if_pos ((h c (by simp)).trans (h d (by simp)).symm)]

theorem runs_append {k : Bool} {c : Char} {s : Str} (hc : isDigit c ≠ k) : ∀ u : Str, u ≠ [] → (∀ c ∈ u, isDigit c = k) →
    runs (u ++ c :: s) = u :: runs (c :: s)
  | [], h, _ => absurd rfl h
  | [x], _, h => by
    obtain ⟨r, rs, e⟩ := runs_head c s
    show runs (x :: c :: s) = _
    rw [runs, e]
    dsimp only
    rw [if_neg (by rw [h x (by simp)]; exact fun e => hc e.symm)]
  | x :: d :: u, _, h => by
    have ih := runs_append hc (s := s) (d :: u) (by simp) fun x hx => h x (List.mem_cons_of_mem _ hx)
    show runs (x :: ((d :: u) ++ c :: s)) = _
    rw [runs, ih]
    dsimp only
    rw [if_pos ((h x (by simp)).trans (h d (by simp)).symm)]

theorem decimal_chars {d : Str} {n : Nat} (h : Decimal d n) : d ≠ [] ∧ (∀ c ∈ d, isDigit c = true) ∧ ∀ c ∈ d, c ≠ '-' ∧ c ≠ '.' := by
  have hc := (numeral_decimal.mp h.2).1
  refine ⟨h.1, fun c hm => ?_, fun c hm => ⟨?_, ?_⟩⟩
  · have := hc c hm
    unfold Digit at this
    unfold isDigit
    simpa using this
  · rintro rfl; exact absurd (hc _ hm) (by unfold Digit; decide)
  · rintro rfl; exact absurd (hc _ hm) (by unfold Digit; decide)

theorem letters_chars {w : Str} (h : Letters w) : (∀ c ∈ w, isDigit c = false) ∧ ∀ c ∈ w, c ≠ '-' ∧ c ≠ '.' :=
  ⟨fun c hm => (GemVersion.letter_not (h c hm)).1, fun c hm => ⟨(GemVersion.letter_not (h c hm)).2.2.1, (GemVersion.letter_not (h c hm)).2.1⟩⟩

theorem value_decimal {d : Str} {n : Nat} (h : Decimal d n) (last : Bool) : value last d = .number n := by
  unfold value
  rw [decimal_iff.mp h]

theorem value_letters {w : Str} (h : Letters w) (h0 : w ≠ []) (last : Bool) : value last w = .word (alias last (w.map Char.toLower)) := by
  unfold value
  cases e : digits? w with
  | none => rfl
  | some n =>
    obtain ⟨_, hd, _⟩ := decimal_chars (decimal_iff.mpr e)
    cases w with
    | nil => exact absurd rfl h0
    | cons c w => exact absurd (hd c (by simp)) (by rw [(letters_chars h).1 c (by simp)]; simp)

theorem pieces_run (p : Prefix) (r : Str) : ∀ (u cur : Str), (∀ c ∈ u, c ≠ '-' ∧ c ≠ '.') → pieces p cur (u ++ r) = pieces p (cur ++ u) r
  | [], cur, _ => by simp
  | c :: u, cur, h => by
    have hc := h c (by simp)
    show pieces p cur (c :: (u ++ r)) = _
    rw [pieces, if_neg hc.1, if_neg hc.2, pieces_run p r u (cur ++ [c]) fun x hx => h x (List.mem_cons_of_mem _ hx)]
    simp

theorem piece_decimal {d : Str} {n : Nat} (h : Decimal d n) (p : Prefix) : piece p d = [⟨p, .number n⟩] := by
  obtain ⟨h0, hd, _⟩ := decimal_chars h
  unfold piece
  rw [runs_uniform d h0 hd]
  simp only [value_decimal h, later]

theorem piece_letters {w : Str} (h : Letters w) (h0 : w ≠ []) (p : Prefix) : piece p w = [⟨p, .word (alias true (w.map Char.toLower))⟩] := by
  unfold piece
  rw [runs_uniform w h0 (letters_chars h).1]
  simp only [value_letters h h0, later, List.isEmpty_nil]

theorem piece_counted {w d : Str} {n : Nat} (h : Letters w) (h0 : w ≠ []) (hd : Decimal d n) (p : Prefix) :
    piece p (w ++ d) = [⟨p, .word (alias false (w.map Char.toLower))⟩, ⟨.dash, .number n⟩] := by
  obtain ⟨hd0, hdd, _⟩ := decimal_chars hd
  cases d with
  | nil => exact absurd rfl hd0
  | cons c d =>
    unfold piece
    rw [runs_append (k := false) (by rw [hdd c (by simp)]; simp) w h0 (letters_chars h).1, runs_uniform _ hd0 hdd]
    simp only [value_letters h h0, later, value_decimal hd, List.isEmpty_cons]

theorem piece_split {d : Str} {n : Nat} (h : Decimal d n) (q : Prefix) {c : Char} (hc : isDigit c = false) (s : Str) :
    piece q (d ++ c :: s) = ⟨q, .number n⟩ :: piece .dash (c :: s) := by
  obtain ⟨h0, hd, _⟩ := decimal_chars h
  obtain ⟨r, rs, e⟩ := runs_head c s
  unfold piece
  rw [runs_append (k := true) (by rw [hc]; simp) d h0 hd, e]
  simp only [value_decimal h, later]

theorem pieces_split {d : Str} {n : Nat} (h : Decimal d n) (q : Prefix) {c : Char} (hc : isDigit c = false) : ∀ (r s : Str),
    pieces q (d ++ c :: s) r = ⟨q, .number n⟩ :: pieces .dash (c :: s) r
  | [], s => piece_split h q hc s
  | x :: r, s => by
    rw [pieces, pieces]
    split
    · rw [piece_split h q hc s]; rfl
    · split
      · rw [piece_split h q hc s]; rfl
      · have := pieces_split h q hc r (s ++ [x])
        simpa using this

/-- A dash between a number and a word can be left out. -/
theorem pieces_sep {d sep w r : Str} {n : Nat} (h : Decimal d n) (q : Prefix) (hs : sep = [] ∨ sep = g!"-") (hl : Letters w) (h0 : w ≠ []) :
    pieces q d (sep ++ (w ++ r)) = ⟨q, .number n⟩ :: pieces .dash w r := by
  have hw := letters_chars hl
  rcases hs with rfl | rfl
  · show pieces q d (w ++ r) = _
    rw [pieces_run q r w d hw.2]
    cases w with
    | nil => exact absurd rfl h0
    | cons c w => exact pieces_split h q (hw.1 c (by simp)) r w
  · show pieces q d ('-' :: (w ++ r)) = _
    rw [pieces, if_pos rfl, piece_decimal h, pieces_run .dash r w [] hw.2]
    rfl

def numTokens (p : Prefix) : List Nat → List Token
  | [] => []
  | n :: r => ⟨p, .number n⟩ :: r.map dot

theorem pieces_numbers {s t : Str} {ns : List Nat} {X : List Token} (h : NumbersText s ns)
    (ht : ∀ q d n, Decimal d n → pieces q d t = ⟨q, .number n⟩ :: X) : ∀ p, pieces p [] (s ++ t) = numTokens p ns ++ X := by
  induction h with
  | @one d n hd =>
    intro p
    rw [pieces_run p t d [] (decimal_chars hd).2.2]
    exact ht p d n hd
  | @dot d r n ns hd hr ih =>
    intro p
    rw [List.append_assoc, pieces_run p _ d [] (decimal_chars hd).2.2]
    show pieces p d ('.' :: (r ++ t)) = _
    rw [pieces, if_neg (by decide), if_pos rfl, piece_decimal hd, ih .dot]
    cases ns with
    | nil => cases hr
    | cons => rfl

theorem alias_word {w : Str} {p : Phase} (h : Word w p) : alias true (w.map Char.toLower) = word p := by
  cases h with
  | other _ h => simp only [List.mem_cons, not_or] at h; simp [alias, word, h]
  | _ h => rw [h]; rfl

theorem alias_counted {w : Str} {p : Phase} (h : Word w p) (hs : ∀ q, ¬ Short w q) : alias false (w.map Char.toLower) = word p := by
  cases h with
  | other _ h =>
    simp only [List.mem_cons, not_or] at h
    have na : w.map Char.toLower ≠ g!"a" := fun e => hs _ (.a e)
    have nb : w.map Char.toLower ≠ g!"b" := fun e => hs _ (.b e)
    have nm : w.map Char.toLower ≠ g!"m" := fun e => hs _ (.m e)
    simp [alias, word, h, na, nb, nm]
  | _ h => rw [h]; rfl

theorem alias_short {w : Str} {p : Phase} (h : Short w p) : alias false (w.map Char.toLower) = word p := by
  cases h with
  | _ h => rw [h]; rfl

theorem word_ne {w : Str} {p : Phase} (h : Word w p) : w ≠ [] ∧ p ≠ .release ∧ word p ≠ [] ∧ ∀ v, p = .other v → keywordOrder v = 7 := by
  cases h with
  | other h0 h =>
    simp only [List.mem_cons, not_or] at h
    refine ⟨h0, by simp, by simpa [word] using h0, ?_⟩
    intro v e
    injection e with e
    subst e
    simp [keywordOrder, h, h0]
  | _ h => exact ⟨(by rintro rfl; cases h), by simp, by simp [word], fun _ e => by cases e⟩

theorem short_ne {w : Str} {p : Phase} (h : Short w p) : w ≠ [] ∧ p ≠ .release ∧ word p ≠ [] ∧ ∀ v, p = .other v → keywordOrder v = 7 := by
  cases h with
  | _ h => exact ⟨(by rintro rfl; cases h), by simp, by simp [word], fun _ e => by cases e⟩

theorem tail_fine {t : Str} {p : Phase} {n : Nat} (h : Tail t p n) : Fine p n := by
  cases h with
  | none => exact ⟨fun _ => rfl, fun _ e => by cases e⟩
  | release => exact ⟨fun _ => rfl, fun _ e => by cases e⟩
  | zero => exact ⟨fun _ => rfl, fun _ e => by cases e⟩
  | revision => exact ⟨fun e => (by cases e), fun _ e => by cases e⟩
  | word _ _ h => exact ⟨fun e => absurd e (word_ne h).2.1, (word_ne h).2.2.2⟩
  | counted _ _ h => exact ⟨fun e => absurd e (word_ne h).2.1, (word_ne h).2.2.2⟩
  | short _ _ h => exact ⟨fun e => absurd e (short_ne h).2.1, (short_ne h).2.2.2⟩
  | dashed _ _ h => exact ⟨fun e => absurd e (word_ne h).2.1, (word_ne h).2.2.2⟩

theorem trim_null {t u : Token} {r : List Token} (h : isNull t = true) : trim false (t :: u :: r) = trim false (u :: r) := by
  rw [trim, if_pos h]

theorem trim_dash {v : Value} {u : Token} {r : List Token} (h : isNull ⟨.dash, v⟩ = false) :
    trim false (⟨.dash, v⟩ :: u :: r) = ⟨.dash, v⟩ :: trim false (u :: r) := by
  rw [trim, if_neg (by simp [h]), if_pos rfl]

theorem trim_counted {p : Phase} {n : Nat} {u : Token} {r : List Token} (h : p ≠ .release) (hw : word p ≠ []) :
    trim false ([⟨.dash, .word (word p)⟩, ⟨.dash, .number n⟩].reverse ++ u :: r) = (tailTokens p n).reverse ++ trim false (u :: r) := by
  have e : tailTokens p n = ⟨.dash, .word (word p)⟩ :: if n = 0 then [] else [⟨.dash, .number n⟩] := by
    unfold tailTokens; rw [if_neg h, if_neg (fun e => hw (by rw [e]; rfl))]
  have nw : isNull ⟨.dash, .word (word p)⟩ = false := by simp [isNull, hw]
  rw [e]
  show trim false (⟨.dash, .number n⟩ :: ⟨.dash, .word (word p)⟩ :: u :: r) = _
  by_cases h0 : n = 0
  · rw [if_pos h0, trim_null (by simp [isNull, h0]), trim_dash nw]
    rfl
  · rw [if_neg h0, trim_dash (by simp [isNull, h0]), trim_dash nw]
    rfl

theorem dashed_number {d d' : Str} {m n : Nat} {q : Prefix} (h : Decimal d m) (h' : Decimal d' n) :
    pieces q d ('-' :: d') = [⟨q, .number m⟩, ⟨.dash, .number n⟩] := by
  have := pieces_run .dash [] d' [] (decimal_chars h').2.2
  rw [List.append_nil] at this
  rw [pieces, if_pos rfl, this, List.nil_append, pieces, piece_decimal h, piece_decimal h']
  rfl

theorem tail_pieces {t : Str} {p : Phase} {n : Nat} (h : Tail t p n) : ∃ X, (∀ q d m, Decimal d m → pieces q d t = ⟨q, .number m⟩ :: X) ∧
    ∀ u r, trim false (X.reverse ++ u :: r) = (tailTokens p n).reverse ++ trim false (u :: r) := by
  cases h with
  | none => exact ⟨[], fun q d m hd => piece_decimal hd q, fun _ _ => rfl⟩
  | @release sep w hs hl hw =>
    have h0 : w ≠ [] := by rintro rfl; simp at hw
    have ha : alias true (w.map Char.toLower) = [] := by
      simp only [List.mem_cons, List.not_mem_nil, or_false] at hw
      rcases hw with h | h | h <;> rw [h] <;> rfl
    have hp : ∀ q, pieces q w [] = [⟨q, .word []⟩] := fun q => by
      rw [pieces, piece_letters hl h0, ha]
    rcases hs with hs | hs | hs
    · refine ⟨[⟨.dash, .word []⟩], fun q d m hd => ?_, fun _ _ => trim_null rfl⟩
      have := pieces_sep (r := []) hd q (.inl hs) hl h0
      rw [List.append_nil] at this
      rw [this, hp]
    · refine ⟨[⟨.dash, .word []⟩], fun q d m hd => ?_, fun _ _ => trim_null rfl⟩
      have := pieces_sep (r := []) hd q (.inr hs) hl h0
      rw [List.append_nil] at this
      rw [this, hp]
    · refine ⟨[⟨.dot, .word []⟩], fun q d m hd => ?_, fun _ _ => trim_null rfl⟩
      subst hs
      have := pieces_run .dot [] w [] (letters_chars hl).2
      rw [List.append_nil] at this
      show pieces q d ('.' :: w) = _
      rw [pieces, if_neg (by decide), if_pos rfl, piece_decimal hd, this, List.nil_append, hp]
      rfl
  | @zero d' hd' =>
    refine ⟨[⟨.dash, .number 0⟩], fun q d m hd => ?_, fun _ _ => trim_null rfl⟩
    rw [dashed_number hd hd']
  | @revision d' _ h0 hd' =>
    refine ⟨[⟨.dash, .number n⟩], fun q d m hd => ?_, fun u r => ?_⟩
    · rw [dashed_number hd hd']
    · exact trim_dash (by simp [isNull, h0])
  | @word sep w _ hs hl hw =>
    obtain ⟨h0, hr, hn, _⟩ := word_ne hw
    refine ⟨[⟨.dash, .word (word p)⟩], fun q d m hd => ?_, fun u r => ?_⟩
    · have := pieces_sep (r := []) hd q hs hl h0
      rw [List.append_nil] at this
      rw [this, pieces, piece_letters hl h0, alias_word hw]
    · have e : tailTokens p 0 = [⟨.dash, .word (word p)⟩] := by
        unfold tailTokens; rw [if_neg hr, if_neg (fun e => hn (by rw [e]; rfl)), if_pos rfl]
      rw [e]
      exact trim_dash (by simp [isNull, hn])
  | @counted sep w d' _ _ hs hl hw hsh hd' =>
    obtain ⟨h0, hr, hn, _⟩ := word_ne hw
    refine ⟨_, fun q d m hd => ?_, fun u r => trim_counted hr hn⟩
    have := pieces_run .dash [] d' w (decimal_chars hd').2.2
    rw [List.append_nil] at this
    rw [pieces_sep hd q hs hl h0, this, pieces, piece_counted hl h0 hd', alias_counted hw hsh]
  | @short sep w d' _ _ hs hl hw hd' =>
    obtain ⟨h0, hr, hn, _⟩ := short_ne hw
    refine ⟨_, fun q d m hd => ?_, fun u r => trim_counted hr hn⟩
    have := pieces_run .dash [] d' w (decimal_chars hd').2.2
    rw [List.append_nil] at this
    rw [pieces_sep hd q hs hl h0, this, pieces, piece_counted hl h0 hd', alias_short hw]
  | @dashed sep w d' _ _ hs hl hw hd' =>
    obtain ⟨h0, hr, hn, _⟩ := word_ne hw
    refine ⟨_, fun q d m hd => ?_, fun u r => trim_counted hr hn⟩
    have := pieces_run .dash [] d' [] (decimal_chars hd').2.2
    rw [List.append_nil] at this
    rw [pieces_sep hd q hs hl h0, pieces, if_pos rfl, this, List.nil_append, pieces, piece_letters hl h0, piece_decimal hd', alias_word hw]
    rfl

theorem trim_keep (m : Nat) : ∀ l : List Nat, trim true (l.map dot ++ [⟨.none, .number m⟩]) = l.map dot ++ [⟨.none, .number m⟩]
  | [] => rfl
  | [n] => rfl
  | n :: k :: l => by
    have := trim_keep m (k :: l)
    simp only [List.map_cons, List.cons_append] at this ⊢
    rw [trim, if_neg (by simp [dot]), this]

theorem trim_zeros (m : Nat) : ∀ l : List Nat,
    trim false (l.map dot ++ [⟨.none, .number m⟩]) = (strip l.reverse).reverse.map dot ++ [⟨.none, .number m⟩]
  | [] => rfl
  | n :: l => by
    rw [List.reverse_cons]
    obtain ⟨u, r, e⟩ : ∃ u r, l.map dot ++ [⟨.none, .number m⟩] = u :: r := by cases l <;> exact ⟨_, _, rfl⟩
    have ih := trim_zeros m l
    have kp := trim_keep m l
    rw [List.map_cons, List.cons_append]
    by_cases h : n = 0
    · subst h
      rw [strip_snoc_zero, ← ih, e, trim_null (by simp [isNull, dot])]
    · rw [strip_snoc_pos _ h, e, trim, if_neg (by simp [isNull, dot, h]), if_neg (by simp [dot]), ← e, kp]
      simp

/-- The tokens of a text. -/
theorem written_tokens {s : Str} {v : Version} (h : Written s v) : ∃ m ns, v.numbers = m :: ns ∧ Fine v.phase v.count ∧
    parse s = ⟨.none, .number m⟩ :: ((strip ns).map dot ++ tailTokens v.phase v.count) := by
  cases h with
  | @mk s t ns p n hn ht =>
    obtain ⟨X, hX, hT⟩ := tail_pieces ht
    obtain ⟨m, ns, rfl⟩ : ∃ m r, ns = m :: r := by cases hn <;> exact ⟨_, _, rfl⟩
    refine ⟨m, ns, rfl, tail_fine ht, ?_⟩
    unfold parse
    rw [pieces_numbers hn hX .none]
    have e : (numTokens .none (m :: ns) ++ X).reverse = X.reverse ++ (ns.reverse.map dot ++ [⟨.none, .number m⟩]) := by simp [numTokens]
    obtain ⟨u, r, e'⟩ : ∃ u r, ns.reverse.map dot ++ [⟨.none, .number m⟩] = u :: r := by cases ns.reverse <;> exact ⟨_, _, rfl⟩
    rw [e, e', hT, ← e', trim_zeros]
    simp

/-! ### The order -/

def cmpVersion (v w : Version) : Int :=
  if cmpComponents v.numbers w.numbers ≠ 0 then cmpComponents v.numbers w.numbers
  else if cmpPhase v.phase w.phase ≠ 0 then cmpPhase v.phase w.phase else cmpInt v.count w.count

theorem maven_version {s t : Str} {v w : Version} (hs : Written s v) (ht : Written t w) : maven s t = cmpVersion v w := by
  obtain ⟨m, ns, e1, f, p1⟩ := written_tokens hs
  obtain ⟨k, ks, e2, g, p2⟩ := written_tokens ht
  unfold maven cmpVersion
  rw [p1, p2, compare_numbers, numbers_compare f g _ _ (strip_strip _) (strip_strip _), tail_compare f g, e1, e2, CranVersion.components_cons,
    components_strip_left, components_strip_right]
  by_cases h : cmpInt m k = 0
  · simp [h]
  · simp [h]

theorem cmpPhase_total : Total cmpPhase :=
  (cmpInt_total.comap fun p => (rank p : Int)).lex (cmpStr_total.comap otherWord)

theorem cmpVersion_total : Total cmpVersion :=
  (cmpComponents_total.comap Version.numbers).lex
    ((cmpPhase_total.comap Version.phase).lex (cmpInt_total.comap fun v : Version => (v.count : Int)))

theorem before_nil (w : Str) : ¬ Before (fun c d => c.toNat < d.toNat) w [] := by
  rw [← cmpStr_before]
  cases w <;> simp [cmpStr]

theorem phase_before (x y : Phase) : cmpPhase x y < 0 ↔ PhaseBefore x y := by
  unfold cmpPhase
  have hl := cmpInt_lt (rank x) (rank y)
  have he := cmpInt_eq (rank x) (rank y)
  by_cases h : cmpInt (rank x) (rank y) = 0
  · rw [if_neg (not_not_intro h), cmpStr_before]
    have hr : rank x = rank y := by omega
    constructor
    · intro hb
      cases x <;> cases y <;> simp [rank] at hr <;> first | exact .words hb | exact absurd hb (before_nil _)
    · rintro (h' | h')
      · omega
      · exact h'
  · rw [if_pos h, hl]
    refine ⟨fun h => .ranked (by omega), ?_⟩
    rintro (h' | _)
    · omega
    · exact absurd (he.mpr rfl) h

theorem version_order (v w : Version) : (cmpVersion v w < 0 ↔ Precedes v w) ∧ (cmpVersion v w = 0 ↔ Same v w) := by
  have hn := Pypi.release_spec v.numbers w.numbers
  have hp := phase_before v.phase w.phase
  have hpe := cmpPhase_eq v.phase w.phase
  have hc := cmpInt_lt v.count w.count
  have hce := cmpInt_eq v.count w.count
  unfold cmpVersion
  by_cases h1 : cmpComponents v.numbers w.numbers = 0
  · have same : SameNumbers v w := hn.2.mp h1
    rw [if_neg (not_not_intro h1)]
    by_cases h2 : cmpPhase v.phase w.phase = 0
    · have e := hpe.mp h2
      rw [if_neg (not_not_intro h2)]
      refine ⟨⟨fun h => .count same e (by omega), ?_⟩, ⟨fun h => ⟨same, e, by omega⟩, fun h => by have := h.2.2; omega⟩⟩
      rintro (⟨i, hi, hlt⟩ | ⟨_, h⟩ | ⟨_, _, h⟩)
      · exact absurd (same i) (by omega)
      · have := hp.mpr h; omega
      · omega
    · rw [if_pos h2]
      refine ⟨⟨fun h => .phase same (hp.mp h), ?_⟩, ⟨fun h => absurd h h2, fun h => absurd (hpe.mpr h.2.1) h2⟩⟩
      rintro (⟨i, hi, hlt⟩ | ⟨_, h⟩ | ⟨_, h, _⟩)
      · exact absurd (same i) (by omega)
      · exact hp.mpr h
      · exact absurd (hpe.mpr h) h2
  · rw [if_pos h1]
    refine ⟨⟨fun h => ?_, ?_⟩, ⟨fun h => absurd h h1, fun h => absurd (hn.2.mpr h.1) h1⟩⟩
    · obtain ⟨i, h, hlt⟩ := hn.1.mp h
      exact .number i h hlt
    · rintro (⟨i, hi, hlt⟩ | ⟨h, _⟩ | ⟨h, _⟩)
      · exact hn.1.mpr ⟨i, hi, hlt⟩
      · exact absurd (hn.2.mpr h) h1
      · exact absurd (hn.2.mpr h) h1

/-! ### Qualifiers behind a dot -/

theorem compare_append (v w : List Token) : ∀ l : List Token, compare (l ++ v) (l ++ w) = compare v w
  | [] => rfl
  | t :: l => by rw [List.cons_append, List.cons_append, compare_same, compare_append v w l]

theorem strip_split : ∀ a : List Nat, ∃ k, a = strip a ++ List.replicate k 0
  | [] => ⟨0, rfl⟩
  | n :: r => by
    obtain ⟨k, e⟩ := strip_split r
    unfold strip
    split
    · rename_i h
      refine ⟨k + 1, ?_⟩
      rw [h.2] at e
      rw [h.1, List.nil_append, List.replicate_succ]
      exact congrArg _ e
    · exact ⟨k, by rw [List.cons_append, ← e]⟩

theorem zeros_right (x : List Token) : ∀ k, lessRight ((List.replicate k 0).map dot ++ x) = lessRight x
  | 0 => rfl
  | k + 1 => by
    rw [List.replicate_succ, List.map_cons, List.cons_append, lessRight, if_pos (show dot 0 = nullToken (dot 0) from rfl), zeros_right x k]

theorem zeros_left (x : List Token) : ∀ k, lessLeft ((List.replicate k 0).map dot ++ x) = lessLeft x
  | 0 => rfl
  | k + 1 => by
    rw [List.replicate_succ, List.map_cons, List.cons_append, lessLeft, if_pos (show nullToken (dot 0) = dot 0 from rfl), zeros_left x k]

theorem dotted_parse {s w t : Str} {ns : List Nat} {p : Phase} (hs : NumbersText s ns) (hl : Letters w) (ht : DottedTail w t p) :
    ∃ m r Y, ns = m :: r ∧ parse (s ++ '.' :: (w ++ t)) = ⟨.none, .number m⟩ :: (r.map dot ++ ⟨.dot, .word (word p)⟩ :: Y) := by
  obtain ⟨m, r, rfl⟩ : ∃ m r, ns = m :: r := by cases hs <;> exact ⟨_, _, rfl⟩
  obtain ⟨u, l, e⟩ : ∃ u l, r.reverse.map dot ++ [⟨.none, .number m⟩] = u :: l := by cases r.reverse <;> exact ⟨_, _, rfl⟩
  have hdot : ∀ X, piece .dot (w ++ t) = X → (∀ c ∈ t, c ≠ '-' ∧ c ≠ '.') →
      pieces .none [] (s ++ '.' :: (w ++ t)) = numTokens .none (m :: r) ++ X := by
    intro X hX hc
    refine pieces_numbers hs (fun q d n hd => ?_) .none
    have := pieces_run .dot [] (w ++ t) [] fun c h => (List.mem_append.mp h).elim ((letters_chars hl).2 c) (hc c)
    rw [List.append_nil] at this
    rw [pieces, if_neg (by decide), if_pos rfl, piece_decimal hd, this, List.nil_append, pieces, hX]
    rfl
  have key : ∀ X : List Token, word p ≠ [] → (numTokens .none (m :: r) ++ ⟨.dot, .word (word p)⟩ :: X).reverse =
      X.reverse ++ ⟨.dot, .word (word p)⟩ :: (r.reverse.map dot ++ [⟨.none, .number m⟩]) := by
    intro X _; simp [numTokens]
  have last : word p ≠ [] → trim false (⟨.dot, .word (word p)⟩ :: (r.reverse.map dot ++ [⟨.none, .number m⟩])) =
      ⟨.dot, .word (word p)⟩ :: (r.reverse.map dot ++ [⟨.none, .number m⟩]) := by
    intro hw
    have kp := trim_keep m r.reverse
    rw [e] at kp ⊢
    rw [trim, if_neg (by simp [isNull, hw]), if_neg (by simp), kp]
  have counted : ∀ n, Decimal t n → word p ≠ [] → w ≠ [] → alias false (w.map Char.toLower) = word p →
      ∃ Y, parse (s ++ '.' :: (w ++ t)) = ⟨.none, .number m⟩ :: (r.map dot ++ ⟨.dot, .word (word p)⟩ :: Y) := by
    intro n hd hw h0 ha
    have hp := hdot _ (piece_counted hl h0 hd .dot) (decimal_chars hd).2.2
    rw [ha] at hp
    unfold parse
    rw [hp, key _ hw]
    by_cases hn : n = 0
    · refine ⟨[], ?_⟩
      rw [List.reverse_singleton, List.singleton_append, trim_null (by simp [isNull, hn]), last hw]
      simp
    · refine ⟨[⟨.dash, .number n⟩], ?_⟩
      rw [List.reverse_singleton, List.singleton_append, trim_dash (by simp [isNull, hn]), last hw]
      simp
  refine ⟨m, r, ?_⟩
  rcases ht with ⟨rfl, hw⟩ | ⟨n, hd, ⟨hw, hsh⟩ | hw⟩
  · obtain ⟨h0, _, hn, _⟩ := word_ne hw
    refine ⟨[], rfl, ?_⟩
    have hp := hdot _ ((congrArg _ (List.append_nil w)).trans (piece_letters hl h0 .dot)) (by simp)
    rw [alias_word hw] at hp
    unfold parse
    rw [hp, key _ hn, List.reverse_nil, List.nil_append, last hn]
    simp
  · obtain ⟨h0, _, hn, _⟩ := word_ne hw
    obtain ⟨Y, h⟩ := counted n hd hn h0 (alias_counted hw hsh)
    exact ⟨Y, rfl, h⟩
  · obtain ⟨h0, _, hn, _⟩ := short_ne hw
    obtain ⟨Y, h⟩ := counted n hd hn h0 (alias_short hw)
    exact ⟨Y, rfl, h⟩

theorem lower_after : ∀ n : Fin 128, 65 ≤ n.val → 48 < (Char.ofNat n.val).toLower.toNat := by decide +kernel

theorem letter_after {c : Char} (h : ('a' ≤ c ∧ c ≤ 'z') ∨ ('A' ≤ c ∧ c ≤ 'Z')) : '0'.toNat < c.toLower.toNat := by
  have hb : 65 ≤ c.toNat ∧ c.toNat < 128 := by
    rcases h with h | h
    · have h1 : 97 ≤ c.toNat := h.1
      have h2 : c.toNat ≤ 122 := h.2
      omega
    · have h1 : 65 ≤ c.toNat := h.1
      have h2 : c.toNat ≤ 90 := h.2
      omega
  have := lower_after ⟨c.toNat, hb.2⟩ hb.1
  dsimp only at this
  rwa [Char.ofNat_toNat] at this

theorem letters_zero {w : Str} (hl : Letters w) (h0 : w ≠ []) :
    cmpStr (w.map Char.toLower) g!"0" = 1 ∧ cmpStr g!"0" (w.map Char.toLower) = -1 := by
  cases w with
  | nil => exact absurd rfl h0
  | cons c w =>
    have h := letter_after (hl c (by simp))
    have h' : ¬ c.toLower.toNat < '0'.toNat := by omega
    constructor
    · simp only [List.map_cons, cmpStr]
      rw [if_neg h', if_pos h]
    · simp only [List.map_cons, cmpStr]
      rw [if_pos h]

theorem dotted_zero {w t : Str} {p : Phase} (hl : Letters w) (ht : DottedTail w t p) :
    p ≠ .release ∧ p ≠ .revision ∧ ∀ v, p = .other v → keywordOrder v = 7 ∧ cmpStr v g!"0" = 1 ∧ cmpStr g!"0" v = -1 := by
  have hW : Word w p → p ≠ .release ∧ p ≠ .revision ∧ ∀ v, p = .other v → keywordOrder v = 7 ∧ cmpStr v g!"0" = 1 ∧ cmpStr g!"0" v = -1 := by
    intro hw
    obtain ⟨h0, h1, h2, h3⟩ := word_ne hw
    refine ⟨h1, fun e => h2 (by rw [e]; rfl), fun v e => ⟨h3 v e, ?_⟩⟩
    subst e
    cases hw
    exact letters_zero hl h0
  rcases ht with ⟨_, hw⟩ | ⟨_, _, ⟨hw, _⟩ | hw⟩
  · exact hW hw
  · exact hW hw
  · obtain ⟨_, h1, h2, _⟩ := short_ne hw
    refine ⟨h1, fun e => h2 (by rw [e]; rfl), fun v e => ?_⟩
    subst e
    cases hw

theorem dotted_compare {s w t : Str} {ns : List Nat} {p : Phase} (hs : NumbersText s ns) (hl : Letters w) (ht : DottedTail w t p) :
    maven (s ++ '.' :: (w ++ t)) s = (if rank p < rank .release then -1 else 1) ∧
      maven s (s ++ '.' :: (w ++ t)) = if rank p < rank .release then 1 else -1 := by
  obtain ⟨m, r, Y, e, hp⟩ := dotted_parse hs hl ht
  obtain ⟨m', r', e', _, hq⟩ := written_tokens (Written.mk hs .none)
  rw [List.append_nil] at hq
  dsimp only at e'
  rw [e] at e'
  injection e' with e1 e2
  subst e1 e2
  obtain ⟨k, hk⟩ := strip_split r
  have hq' : parse s = ⟨.none, .number m⟩ :: ((strip r).map dot ++ []) := hq
  have hp' : parse (s ++ '.' :: (w ++ t)) = ⟨.none, .number m⟩ ::
      ((strip r).map dot ++ ((List.replicate k 0).map dot ++ ⟨.dot, .word (word p)⟩ :: Y)) := by
    rw [hp]
    conv => lhs; rw [hk]
    simp
  unfold maven
  rw [hp', hq', compare_same, compare_append, compare_same, compare_append]
  obtain ⟨h1, h2, h5⟩ := dotted_zero hl ht
  obtain ⟨u, l, eu⟩ : ∃ u l, (List.replicate k 0).map dot ++ ⟨.dot, .word (word p)⟩ :: Y = u :: l := by
    cases k <;> exact ⟨_, _, rfl⟩
  have R := zeros_right (⟨.dot, .word (word p)⟩ :: Y) k
  have L := zeros_left (⟨.dot, .word (word p)⟩ :: Y) k
  rw [eu] at R L ⊢
  simp only [compare, less, R, L, reduceCtorEq, if_false]
  rw [lessRight, lessLeft]
  cases p with
  | release => exact absurd rfl h1
  | revision => exact absurd rfl h2
  | other v =>
    obtain ⟨h4, h5, h6⟩ := h5 v rfl
    have hv : (Value.word v) ≠ Value.word g!"sp" := fun e => by injection e with e; rw [e] at h4; exact absurd h4 (by decide)
    have n1 : nullToken ⟨.dot, .word v⟩ = ⟨.dot, .number 0⟩ := by unfold nullToken; rw [if_pos rfl, if_neg hv]
    have t0 : text (.number 0) = g!"0" := by decide
    simp only [word, n1, tokenLess, if_true, wordLess, h4, t0, h5, h6, Token.mk.injEq, reduceCtorEq, and_false, if_false]
    exact ⟨rfl, rfl⟩
  | _ => exact ⟨rfl, rfl⟩

/-- A separator at the end counts for nothing. -/
theorem parse_trailing {s : Str} {ns : List Nat} {c : Char} (hs : NumbersText s ns) (hc : c = '.' ∨ c = '-') : parse (s ++ [c]) = parse s := by
  obtain ⟨m, r, rfl⟩ : ∃ m r, ns = m :: r := by cases hs <;> exact ⟨_, _, rfl⟩
  obtain ⟨u, l, e⟩ : ∃ u l, (numTokens .none (m :: r)).reverse = u :: l := by
    cases h : (numTokens .none (m :: r)).reverse with
    | nil => simp [numTokens] at h
    | cons u l => exact ⟨u, l, rfl⟩
  have h0 := pieces_numbers (t := []) (X := []) hs (fun q d n hd => piece_decimal hd q) .none
  rw [List.append_nil, List.append_nil] at h0
  unfold parse
  rw [h0]
  rcases hc with rfl | rfl
  · have h := pieces_numbers (t := g!".") (X := [⟨.dot, .number 0⟩]) hs (fun q d n hd => by
      rw [pieces, if_neg (by decide), if_pos rfl, piece_decimal hd]; rfl) .none
    rw [h, List.reverse_append, e]
    exact congrArg _ (trim_null rfl)
  · have h := pieces_numbers (t := g!"-") (X := [⟨.dash, .number 0⟩]) hs (fun q d n hd => by
      rw [pieces, if_pos rfl, piece_decimal hd]; rfl) .none
    rw [h, List.reverse_append, e]
    exact congrArg _ (trim_null rfl)

end Osv.MavenVersion
