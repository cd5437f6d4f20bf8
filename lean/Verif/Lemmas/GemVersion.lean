import Verif.Lemmas.PypiOrder
import Verif.Model.GemVersion
import Verif.Spec.GemVersion
/-! # The comparison of gem versions -/
namespace Osv.GemVersion
open Str Semantic Spec Spec.ModText
open Spec.Precedence (Decimal)
open Spec.Pep440 (Seg SegBefore)
open Spec.GemVersion

/-! ### Runs -/

theorem letter_not {c : Char} (h : ('a' ≤ c ∧ c ≤ 'z') ∨ ('A' ≤ c ∧ c ≤ 'Z')) : isDigit c = false ∧ c ≠ '.' ∧ c ≠ '-' ∧ c ≠ '+' := by
  have no : ∀ d : Char, ¬ (('a' ≤ d ∧ d ≤ 'z') ∨ ('A' ≤ d ∧ d ≤ 'Z')) → c ≠ d := fun d hd e => hd (e ▸ h)
  refine ⟨?_, no '.' (by decide), no '-' (by decide), no '+' (by decide)⟩
  rw [Bool.eq_false_iff]
  intro hd
  have := digit_nat.mp (isDigit_iff.mp hd)
  rcases h with h | h
  · have h1 : 'a'.toNat ≤ c.toNat := h.1
    have : 'a'.toNat = 97 := rfl
    omega
  · have h1 : 'A'.toNat ≤ c.toNat := h.1
    have : 'A'.toNat = 65 := rfl
    omega

def isNumber : Seg → Bool
  | .number _ => true
  | .text _ => false

theorem piece_chars {p : Str} {x : Seg} (h : Piece p x) : p ≠ [] ∧ ∀ c ∈ p, isDigit c = isNumber x ∧ c ≠ '.' := by
  cases h with
  | number hd _ =>
    refine ⟨hd.1, fun c hc => ?_⟩
    have := (numeral_decimal.mp hd.2).1 c hc
    exact ⟨isDigit_iff.mpr this, fun e => by rw [e] at this; exact absurd this (by unfold Digit; decide)⟩
  | text h0 h => exact ⟨h0, fun c hc => ⟨(letter_not (h c hc)).1, (letter_not (h c hc)).2.1⟩⟩

theorem piece_bigInt {p : Str} {x : Seg} (h : Piece p x) : bigInt? p = Pypi.segValue x := by
  cases h with
  | number hd _ =>
    have := decimal_iff.mp hd
    have hc := (numeral_decimal.mp hd.2).1
    unfold bigInt?
    split
    · exact absurd (hc '-' (by simp)) (by unfold Digit; decide)
    · exact absurd (hc '+' (by simp)) (by unfold Digit; decide)
    · rw [this]; rfl
  | text h0 h =>
    have : digits? p = none := by
      unfold digits?
      rw [if_neg]
      rintro ⟨_, ha⟩
      obtain ⟨c, r, rfl⟩ := List.exists_cons_of_ne_nil h0
      have := (letter_not (h c (by simp))).1
      rw [List.all_eq_true] at ha
      rw [ha c (by simp)] at this
      exact absurd this (by simp)
    unfold bigInt?
    split
    · exact absurd rfl (letter_not (h '-' (by simp))).2.2.1
    · exact absurd rfl (letter_not (h '+' (by simp))).2.2.2
    · rw [this]; rfl

theorem cmpSegment_piece {p q : Str} {x y : Seg} (hx : Piece p x) (hy : Piece q y) : cmpSegment p q = Pypi.cmpSeg x y := by
  unfold cmpSegment
  rw [piece_bigInt hx, piece_bigInt hy]
  cases hx <;> cases hy <;> rfl

theorem piece_zero {p : Str} {x : Seg} (h : Piece p x) : p = g!"0" ↔ x = zero := by
  constructor
  · rintro rfl
    have := piece_bigInt h
    have e : bigInt? g!"0" = some 0 := by decide
    rw [e] at this
    cases x with
    | number n => simp only [Pypi.segValue, Option.some.injEq] at this; have : n = 0 := by omega
                  rw [zero, this]
    | text t => simp [Pypi.segValue] at this
  · rintro rfl
    cases h with
    | number _ h => exact h rfl

theorem zero_piece : Piece g!"0" zero := .number ⟨by simp, by
  have := Spec.ModText.Numeral.snoc (base := 10) (c := '0') (n := 0) .nil (.inl rfl) (by decide)
  simpa using this⟩ fun _ => rfl

/-! ### Texts -/

inductive Pieces : List Str → List Seg → Prop
  | nil : Pieces [] []
  | cons {p : Str} {x : Seg} {ps : List Str} {xs : List Seg} : Piece p x → Pieces ps xs → Pieces (p :: ps) (x :: xs)

theorem canon_run {k : Bool} (r : Str) : ∀ (p : Str), (∀ c ∈ p, isDigit c = k ∧ c ≠ '.') → canonLoop true k (p ++ r) = p ++ canonLoop true k r := by
  intro p
  induction p with
  | nil => intro _; rfl
  | cons c p ih =>
    intro h
    have ⟨h1, h2⟩ := h c (List.mem_cons_self ..)
    rw [List.cons_append, canonLoop, if_neg h2, if_neg (by rw [h1]; simp), h1, ih fun d hd => h d (List.mem_cons_of_mem _ hd)]
    rfl

theorem canon_piece {p r : Str} {x : Seg} (h : Piece p x) (prev : Bool) :
    canonLoop false prev (p ++ r) = p ++ canonLoop true (isNumber x) r := by
  obtain ⟨h0, hc⟩ := piece_chars h
  obtain ⟨c, p, rfl⟩ := List.exists_cons_of_ne_nil h0
  have ⟨h1, h2⟩ := hc c (List.mem_cons_self ..)
  rw [List.cons_append, canonLoop, if_neg h2, if_neg (by simp), h1, canon_run r p fun d hd => hc d (List.mem_cons_of_mem _ hd)]
  rfl

theorem text_head {s : Str} {y : Seg} {xs : List Seg} (h : Text Piece s (y :: xs)) : ∃ c r, s = c :: r ∧ isDigit c = isNumber y ∧ c ≠ '.' := by
  have : ∀ {p : Str} (r : Str), Piece p y → ∃ c r', p ++ r = c :: r' ∧ isDigit c = isNumber y ∧ c ≠ '.' := by
    intro p r h
    obtain ⟨h0, hc⟩ := piece_chars h
    obtain ⟨c, p, rfl⟩ := List.exists_cons_of_ne_nil h0
    exact ⟨c, p ++ r, rfl, hc c (List.mem_cons_self ..)⟩
  cases h with
  | one h => have := this [] h; rwa [List.append_nil] at this
  | dot h _ => exact this _ h
  | touch h _ _ => exact this _ h

theorem canon_touch {s : Str} {y : Seg} {xs : List Seg} {k : Bool} (h : Text Piece s (y :: xs)) (hk : k ≠ isNumber y) :
    canonLoop true k s = '.' :: canonLoop false k s := by
  obtain ⟨c, r, rfl, h1, h2⟩ := text_head h
  rw [canonLoop, canonLoop, if_neg h2, if_neg h2, h1, if_pos ⟨rfl, hk⟩, if_neg (by simp)]

theorem text_canon {s : Str} {xs : List Seg} (h : Text Piece s xs) : ∃ p ps, Pieces (p :: ps) xs ∧ ∀ prev,
    canonLoop false prev s = p ++ ps.flatMap ('.' :: ·) := by
  induction h with
  | @one p x h =>
    refine ⟨p, [], .cons h .nil, fun prev => ?_⟩
    have := canon_piece (r := []) h prev
    rw [List.append_nil] at this
    rw [this]; rfl
  | @dot p r x xs h _ ih =>
    obtain ⟨q, qs, h1, h2⟩ := ih
    refine ⟨p, q :: qs, .cons h h1, fun prev => ?_⟩
    rw [canon_piece h, canonLoop, if_pos rfl, h2]
    simp
  | @touch p r x y xs h hr hu ih =>
    obtain ⟨q, qs, h1, h2⟩ := ih
    refine ⟨p, q :: qs, .cons h h1, fun prev => ?_⟩
    rw [canon_piece h, canon_touch hr (by cases hu <;> simp [isNumber]), h2]
    simp

theorem pieces_mem {ps : List Str} {xs : List Seg} (h : Pieces ps xs) : ∀ p ∈ ps, ∃ x, Piece p x := by
  induction h with
  | nil => simp
  | cons h _ ih =>
    intro p hp
    rcases List.mem_cons.mp hp with rfl | hp
    · exact ⟨_, h⟩
    · exact ih p hp

theorem text_split {s : Str} {xs : List Seg} (h : Text Piece s xs) : Pieces (splitChar '.' (canonicalize s)) xs := by
  obtain ⟨p, ps, h1, h2⟩ := text_canon h
  unfold canonicalize
  rw [h2, split_joined]
  · exact h1
  · intro j hj hm
    obtain ⟨x, hx⟩ := pieces_mem h1 j hj
    exact ((piece_chars hx).2 '.' hm).2 rfl

/-! ### Zeros at the end -/

theorem pieces_append {ps : List Str} {a b : List Seg} (h : Pieces ps (a ++ b)) : ∃ p q, ps = p ++ q ∧ Pieces p a ∧ Pieces q b := by
  induction a generalizing ps with
  | nil => exact ⟨[], ps, rfl, .nil, h⟩
  | cons x a ih =>
    cases h with
    | cons h1 h2 =>
      obtain ⟨p, q, rfl, h3, h4⟩ := ih h2
      exact ⟨_ :: p, q, rfl, .cons h1 h3, h4⟩

theorem pieces_zeros {ps : List Str} {k : Nat} (h : Pieces ps (List.replicate k zero)) : ps = List.replicate k g!"0" := by
  induction k generalizing ps with
  | zero => cases h; rfl
  | succ k ih =>
    rw [List.replicate_succ] at h
    cases h with
    | cons h1 h2 => rw [(piece_zero h1).mpr rfl, ih h2, List.replicate_succ]

theorem pieces_join {p q : List Str} {a b : List Seg} (h1 : Pieces p a) (h2 : Pieces q b) : Pieces (p ++ q) (a ++ b) := by
  induction h1 with
  | nil => exact h2
  | cons h _ ih => exact .cons h ih

theorem pieces_last {ps : List Str} {xs : List Seg} (h : Pieces ps xs) (hl : xs.getLast? ≠ some zero) : ps.getLast? ≠ some g!"0" := by
  induction h with
  | nil => simp
  | @cons p x ps xs h h2 ih =>
    cases h2 with
    | nil =>
      simp only [List.getLast?_singleton, ne_eq, Option.some.injEq] at hl ⊢
      exact fun e => hl ((piece_zero h).mp e)
    | cons h3 h4 =>
      rw [List.getLast?_cons_cons] at hl ⊢
      exact ih hl

theorem removeZeros_append {a : List Str} (k : Nat) (h : a.getLast? ≠ some g!"0") : removeZeros (a ++ List.replicate k g!"0") = a := by
  have drop : ∀ (k : Nat) (b : List Str), (List.replicate k g!"0" ++ b).dropWhile (· = g!"0") = b.dropWhile (· = g!"0") := by
    intro k b
    induction k with
    | zero => rfl
    | succ k ih => rw [List.replicate_succ, List.cons_append, List.dropWhile_cons, if_pos (by simp), ih]
  unfold removeZeros
  rw [List.reverse_append, List.reverse_replicate, drop]
  rw [← List.head?_reverse] at h
  cases e : a.reverse with
  | nil => rw [List.reverse_eq_nil_iff.mp e]; rfl
  | cons c r =>
    rw [e] at h
    rw [List.dropWhile_cons, if_neg (by simpa using h), ← e, List.reverse_reverse]

theorem group_append {a b : List Str} (ha : ∀ s ∈ a, (bigInt? s).isSome = true) (hb : ∀ s, b.head? = some s → (bigInt? s).isSome = false) :
    group (a ++ b) = (a, b) := by
  induction a with
  | nil =>
    cases b with
    | nil => rfl
    | cons s b => rw [List.nil_append, group, if_neg (by rw [hb s rfl]; simp)]
  | cons s a ih =>
    rw [List.cons_append, group, if_pos (ha s (List.mem_cons_self ..)), ih fun t ht => ha t (List.mem_cons_of_mem _ ht)]

theorem pieces_numbers {ps : List Str} {xs : List Seg} (h : Pieces ps xs) (hn : ∀ x ∈ xs, ∃ n, x = Seg.number n) :
    ∀ s ∈ ps, (bigInt? s).isSome = true := by
  induction h with
  | nil => simp
  | @cons p x ps xs h _ ih =>
    intro s hs
    rcases List.mem_cons.mp hs with rfl | hs
    · obtain ⟨n, rfl⟩ := hn _ (List.mem_cons_self ..)
      rw [piece_bigInt h]; rfl
    · exact ih (fun y hy => hn y (List.mem_cons_of_mem _ hy)) s hs

theorem zeros_numbers (k : Nat) : ∀ s ∈ List.replicate k g!"0", (bigInt? s).isSome = true := by
  intro s hs
  rw [List.eq_of_mem_replicate hs]
  decide

theorem canonical_pieces {ps : List Str} {xs ys : List Seg} (h : Pieces ps xs) (hc : Canonical xs ys) : Pieces (canonicalSegments ps) ys := by
  unfold canonicalSegments
  cases hc with
  | @numbers ns k hn hl =>
    obtain ⟨p, z, rfl, h1, h2⟩ := pieces_append h
    obtain rfl := pieces_zeros h2
    have g : group (p ++ List.replicate k g!"0") = (p ++ List.replicate k g!"0", []) := by
      have := group_append (a := p ++ List.replicate k g!"0") (b := []) (fun s hs => ?_) (by simp)
      · rwa [List.append_nil] at this
      · rcases List.mem_append.mp hs with hs | hs
        · exact pieces_numbers h1 hn s hs
        · exact zeros_numbers k s hs
    rw [g]
    dsimp only
    rw [removeZeros_append k (pieces_last h1 hl)]
    have : removeZeros [] = [] := rfl
    rw [this, List.append_nil]
    exact h1
  | @both ns ts t k l hn hl ht =>
    obtain ⟨pz, qz, rfl, g1, g2⟩ := pieces_append h
    obtain ⟨p, z, rfl, h1, h3⟩ := pieces_append g1
    obtain rfl := pieces_zeros h3
    obtain ⟨q, z, rfl, h2, h4⟩ := pieces_append g2
    obtain rfl := pieces_zeros h4
    clear g1 g2
    have g : group (p ++ List.replicate k g!"0" ++ (q ++ List.replicate l g!"0")) = (p ++ List.replicate k g!"0", q ++ List.replicate l g!"0") := by
      refine group_append (fun s hs => ?_) (fun s hs => ?_)
      · rcases List.mem_append.mp hs with hs | hs
        · exact pieces_numbers h1 hn s hs
        · exact zeros_numbers k s hs
      · cases h2 with
        | cons h5 h6 =>
          simp only [List.cons_append, List.head?_cons, Option.some.injEq] at hs
          rw [← hs, piece_bigInt h5]; rfl
    rw [g]
    dsimp only
    rw [removeZeros_append k (pieces_last h1 hl), removeZeros_append l (pieces_last h2 ht)]
    exact pieces_join h1 h2

/-! ### The comparison -/

theorem first_range' (f : Nat → Int) : ∀ (n s : Nat),
    (((List.range' s n).map f).foldr (fun d r => if d ≠ 0 then d else r) 0 < 0 ↔
      ∃ i, s ≤ i ∧ i < s + n ∧ (∀ j, s ≤ j → j < i → f j = 0) ∧ f i < 0) ∧
    (((List.range' s n).map f).foldr (fun d r => if d ≠ 0 then d else r) 0 = 0 ↔ ∀ i, s ≤ i → i < s + n → f i = 0) := by
  intro n
  induction n with
  | zero => intro s; exact ⟨⟨fun h => by simp at h, fun ⟨i, h1, h2, _⟩ => by omega⟩, ⟨fun _ i h1 h2 => by omega, fun _ => rfl⟩⟩
  | succ n ih =>
    intro s
    rw [List.range'_succ, List.map_cons, List.foldr_cons]
    by_cases h : f s = 0
    · rw [if_neg (by simpa using h), (ih (s + 1)).1, (ih (s + 1)).2]
      constructor
      · constructor
        · rintro ⟨i, h1, h2, h3, h4⟩
          refine ⟨i, by omega, by omega, fun j h5 h6 => ?_, h4⟩
          by_cases e : j = s
          · rw [e]; exact h
          · exact h3 j (by omega) h6
        · rintro ⟨i, h1, h2, h3, h4⟩
          have : i ≠ s := fun e => by rw [e, h] at h4; exact absurd h4 (by simp)
          exact ⟨i, by omega, by omega, fun j h5 h6 => h3 j (by omega) h6, h4⟩
      · constructor
        · intro h1 i h2 h3
          by_cases e : i = s
          · rw [e]; exact h
          · exact h1 i (by omega) (by omega)
        · intro h1 i h2 h3
          exact h1 i (by omega) (by omega)
    · rw [if_pos h]
      constructor
      · constructor
        · exact fun h1 => ⟨s, Nat.le_refl _, by omega, fun j h5 h6 => by omega, h1⟩
        · rintro ⟨i, h1, h2, h3, h4⟩
          by_cases e : i = s
          · rw [← e]; exact h4
          · exact absurd (h3 s (Nat.le_refl _) (by omega)) h
      · exact ⟨fun h1 => absurd h1 h, fun h1 => h1 s (Nat.le_refl _) (by omega)⟩

theorem pieces_getD {ps : List Str} {xs : List Seg} (h : Pieces ps xs) : ∀ i, Piece (ps.getD i g!"0") (xs.getD i zero) := by
  induction h with
  | nil => intro i; simpa using zero_piece
  | cons h _ ih =>
    intro i
    cases i with
    | zero => exact h
    | succ i => exact ih i

theorem cmpSegments_spec {ps qs : List Str} {a b : List Seg} (hp : Pieces ps a) (hq : Pieces qs b) :
    (cmpSegments ps qs < 0 ↔ Precedes a b) ∧ (cmpSegments ps qs = 0 ↔ Same a b) := by
  have at' : ∀ i, cmpSegment (ps.getD i g!"0") (qs.getD i g!"0") = Pypi.cmpSeg (a.getD i zero) (b.getD i zero) := fun i =>
    cmpSegment_piece (pieces_getD hp i) (pieces_getD hq i)
  have len : ∀ {ps : List Str} {xs : List Seg}, Pieces ps xs → ps.length = xs.length := by
    intro ps xs h
    induction h with
    | nil => rfl
    | cons _ _ ih => simp [ih]
  have out : ∀ i, Nat.max ps.length qs.length ≤ i → a.getD i zero = zero ∧ b.getD i zero = zero := by
    intro i hi
    have h1 : ps.length ≤ Nat.max ps.length qs.length := Nat.le_max_left ..
    have h2 : qs.length ≤ Nat.max ps.length qs.length := Nat.le_max_right ..
    have e1 := len hp
    have e2 := len hq
    constructor
    · rw [List.getD_eq_getElem?_getD, List.getElem?_eq_none (by omega)]; rfl
    · rw [List.getD_eq_getElem?_getD, List.getElem?_eq_none (by omega)]; rfl
  unfold cmpSegments
  rw [List.range_eq_range']
  obtain ⟨x, y⟩ := first_range' (fun i => cmpSegment (ps.getD i g!"0") (qs.getD i g!"0")) (Nat.max ps.length qs.length) 0
  rw [x, y]
  simp only [at', (Pypi.cmpSeg_spec _ _).1, (Pypi.cmpSeg_spec _ _).2]
  constructor
  · constructor
    · rintro ⟨i, _, _, h3, h4⟩
      exact ⟨i, fun j hj => h3 j (Nat.zero_le _) hj, h4⟩
    · rintro ⟨i, h3, h4⟩
      refine ⟨i, Nat.zero_le _, ?_, fun j _ hj => h3 j hj, h4⟩
      refine Classical.byContradiction fun hn => ?_
      rw [(out i (by omega)).1, (out i (by omega)).2, ← (Pypi.cmpSeg_spec _ _).1] at h4
      exact absurd h4 (by decide)
  · constructor
    · intro h i
      by_cases hi : i < Nat.max ps.length qs.length
      · exact h i (Nat.zero_le _) (by omega)
      · rw [(out i (by omega)).1, (out i (by omega)).2]
    · exact fun h i _ _ => h i

theorem gems_spec {s t : Str} {xs ys a b : List Seg} (hs : Text Piece s xs) (ht : Text Piece t ys) (ha : Canonical xs a) (hb : Canonical ys b) :
    (gems s t < 0 ↔ Precedes a b) ∧ (gems s t = 0 ↔ Same a b) :=
  cmpSegments_spec (canonical_pieces (text_split hs) ha) (canonical_pieces (text_split ht) hb)

/-! ### Every version has runs that count -/

theorem strip (xs : List Seg) : ∃ ys k, xs = ys ++ List.replicate k zero ∧ ys.getLast? ≠ some zero := by
  have : ∀ r : List Seg, ∃ ys k, r = List.replicate k zero ++ ys ∧ ys.head? ≠ some zero := by
    intro r
    induction r with
    | nil => exact ⟨[], 0, rfl, by simp⟩
    | cons x r ih =>
      by_cases h : x = zero
      · obtain ⟨ys, k, e, h1⟩ := ih
        exact ⟨ys, k + 1, by rw [List.replicate_succ, List.cons_append, ← e, h], h1⟩
      · exact ⟨x :: r, 0, rfl, by simpa using h⟩
  obtain ⟨ys, k, e, h⟩ := this xs.reverse
  refine ⟨ys.reverse, k, ?_, by rw [List.getLast?_reverse]; exact h⟩
  have := congrArg List.reverse e
  rwa [List.reverse_reverse, List.reverse_append, List.reverse_replicate] at this

theorem parts (xs : List Seg) : ∃ ns ts, xs = ns ++ ts ∧ (∀ x ∈ ns, ∃ n, x = Seg.number n) ∧ (ts = [] ∨ ∃ t r, ts = .text t :: r) := by
  induction xs with
  | nil => exact ⟨[], [], rfl, by simp, .inl rfl⟩
  | cons x xs ih =>
    cases x with
    | text t => exact ⟨[], .text t :: xs, rfl, by simp, .inr ⟨t, xs, rfl⟩⟩
    | number n =>
      obtain ⟨ns, ts, rfl, h1, h2⟩ := ih
      refine ⟨.number n :: ns, ts, rfl, fun y hy => ?_, h2⟩
      rcases List.mem_cons.mp hy with rfl | hy
      · exact ⟨n, rfl⟩
      · exact h1 y hy

theorem canonical_exists (xs : List Seg) : ∃ ys, Canonical xs ys := by
  obtain ⟨ns, ts, rfl, h1, h2⟩ := parts xs
  obtain ⟨ms, k, rfl, h3⟩ := strip ns
  have h4 : ∀ x ∈ ms, ∃ n, x = Seg.number n := fun x hx => h1 x (List.mem_append_left _ hx)
  rcases h2 with rfl | ⟨t, r, rfl⟩
  · rw [List.append_nil]; exact ⟨ms, .numbers h4 h3⟩
  · obtain ⟨us, l, e, h5⟩ := strip (.text t :: r)
    cases us with
    | nil =>
      cases l with
      | zero => exact absurd e (by simp)
      | succ l => rw [List.replicate_succ] at e; exact absurd (List.cons.inj e).1 (by simp [zero])
    | cons u us =>
      obtain rfl := (List.cons.inj e).1
      rw [e]
      exact ⟨_, .both h4 h3 h5⟩

end Osv.GemVersion
