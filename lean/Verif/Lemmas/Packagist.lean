import Verif.Lemmas.GemVersion
import Verif.Model.Packagist
import Verif.Spec.Packagist
/-! # The comparison of the versions of PHP packages -/
namespace Osv.Packagist
open Str Semantic Spec Spec.ModText Spec.Packagist
open Spec.Precedence (Decimal)
open GemVersion (canonLoop canon_run)

/-! ### Elements -/

def isNumber : Elem → Bool
  | .number _ => true
  | _ => false

/-- The place of an element, and the value of numbers. -/
def key : Elem → Nat × Nat
  | .dev => (0, 0)
  | .alpha => (1, 0)
  | .beta => (2, 0)
  | .rc => (3, 0)
  | .number n => (5, n)
  | .patch => (6, 0)

def cmpKey (k l : Nat × Nat) : Int := if cmpInt k.1 l.1 ≠ 0 then cmpInt k.1 l.1 else cmpInt k.2 l.2

/-- The keys of a version, with one for the end. -/
def code (v : List Elem) : List (Nat × Nat) := v.map key ++ [(4, 0)]

theorem cmpKey_total : Total cmpKey :=
  (cmpInt_total.comap fun k : Nat × Nat => (k.1 : Int)).lex (cmpInt_total.comap fun k : Nat × Nat => (k.2 : Int))

theorem cmpKey_eq (k l : Nat × Nat) : cmpKey k l = 0 ↔ k = l := by
  obtain ⟨a, b⟩ := k
  obtain ⟨c, d⟩ := l
  unfold cmpKey
  have e1 := cmpInt_eq a c
  have e2 := cmpInt_eq b d
  simp only [Prod.mk.injEq]
  split <;> omega

theorem key_inj {x y : Elem} (h : key x = key y) : x = y := by
  cases x <;> cases y <;> simp_all [key]

theorem key_before (x y : Elem) : cmpKey (key x) (key y) < 0 ↔ ElemBefore x y := by
  constructor
  · intro h
    cases x with
    | dev => cases y <;> first | exact absurd h (by decide) | exact .devAlpha | exact .devBeta | exact .devRc | exact .early .dev (fun h => by cases h)
    | alpha => cases y <;> first | exact absurd h (by decide) | exact .alphaBeta | exact .alphaRc | exact .early .alpha (fun h => by cases h)
    | beta => cases y <;> first | exact absurd h (by decide) | exact .betaRc | exact .early .beta (fun h => by cases h)
    | rc => cases y <;> first | exact absurd h (by decide) | exact .early .rc (fun h => by cases h)
    | number m =>
      cases y with
      | number n =>
        have : cmpKey (key (.number m)) (key (.number n)) = cmpInt m n := rfl
        rw [this] at h
        have := cmpInt_lt m n
        exact .numbers (by omega)
      | patch => exact .patch
      | dev => exact absurd h (by simp [cmpKey, key, cmpInt])
      | alpha => exact absurd h (by simp [cmpKey, key, cmpInt])
      | beta => exact absurd h (by simp [cmpKey, key, cmpInt])
      | rc => exact absurd h (by simp [cmpKey, key, cmpInt])
    | patch => cases y <;> exact absurd h (by simp [cmpKey, key, cmpInt])
  · intro h
    cases h with
    | early h1 h2 =>
      cases h1 <;> cases y <;> first | exact absurd (by constructor) h2 | simp [cmpKey, key, cmpInt]
    | numbers h =>
      rename_i m n
      have : cmpKey (key (.number m)) (key (.number n)) = cmpInt m n := rfl
      rw [this]
      have := cmpInt_lt m n
      omega
    | _ => simp [cmpKey, key, cmpInt]

theorem key_early (x : Elem) : (cmpKey (key x) (4, 0) < 0 ↔ Early x) ∧ (cmpKey (4, 0) (key x) < 0 ↔ ¬ Early x) ∧
    cmpKey (key x) (4, 0) ≠ 0 ∧ cmpKey (4, 0) (key x) ≠ 0 := by
  have y : ∀ {x : Elem}, Early x → (cmpKey (key x) (4, 0) < 0 ↔ Early x) ∧ (cmpKey (4, 0) (key x) < 0 ↔ ¬ Early x) ∧
      cmpKey (key x) (4, 0) ≠ 0 ∧ cmpKey (4, 0) (key x) ≠ 0 := by
    intro x h
    cases h <;> refine ⟨⟨fun _ => by constructor, fun _ => by decide⟩, ⟨fun h => absurd h (by decide), fun h => absurd (by constructor) h⟩, by decide, by decide⟩
  cases x with
  | dev => exact y .dev
  | alpha => exact y .alpha
  | beta => exact y .beta
  | rc => exact y .rc
  | number n => exact ⟨⟨fun h => absurd h (by simp [cmpKey, key, cmpInt]), fun h => by cases h⟩, ⟨fun _ h => (by cases h), fun _ => by simp [cmpKey, key, cmpInt]⟩,
      by simp [cmpKey, key, cmpInt], by simp [cmpKey, key, cmpInt]⟩
  | patch => exact ⟨⟨fun h => absurd h (by decide), fun h => by cases h⟩, ⟨fun _ h => (by cases h), fun _ => by decide⟩, by decide, by decide⟩

/-! ### The order of versions -/

theorem precedes_inv {a b : List Elem} (h : Precedes a b) : (∃ p x s y t, a = p ++ x :: s ∧ b = p ++ y :: t ∧ ElemBefore x y) ∨
    (∃ x t, a = b ++ x :: t ∧ Early x) ∨ (∃ x t, b = a ++ x :: t ∧ ¬ Early x) := by
  cases h with
  | differ h => exact .inl ⟨_, _, _, _, _, rfl, rfl, h⟩
  | early h => exact .inr (.inl ⟨_, _, rfl, h⟩)
  | late h => exact .inr (.inr ⟨_, _, rfl, h⟩)

theorem precedes_nil : ¬ Precedes [] [] := by
  intro h
  rcases precedes_inv h with ⟨p, x, s, y, t, h, _⟩ | ⟨x, t, h, _⟩ | ⟨x, t, h, _⟩
  · exact absurd h (by cases p <;> simp)
  · exact absurd h (by simp)
  · exact absurd h (by simp)

theorem precedes_nil_cons (y : Elem) (b : List Elem) : Precedes [] (y :: b) ↔ ¬ Early y := by
  constructor
  · intro h
    rcases precedes_inv h with ⟨p, x, s, y, t, h, _⟩ | ⟨x, t, h, _⟩ | ⟨x, t, h, he⟩
    · exact absurd h (by cases p <;> simp)
    · exact absurd h (by simp)
    · obtain ⟨rfl, _⟩ := List.cons.inj h
      exact he
  · exact fun h => .late (p := []) h

theorem precedes_cons_nil (x : Elem) (a : List Elem) : Precedes (x :: a) [] ↔ Early x := by
  constructor
  · intro h
    rcases precedes_inv h with ⟨p, x, s, y, t, _, h, _⟩ | ⟨x, t, h, he⟩ | ⟨x, t, h, _⟩
    · exact absurd h (by cases p <;> simp)
    · obtain ⟨rfl, _⟩ := List.cons.inj h
      exact he
    · exact absurd h (by simp)
  · exact fun h => .early (p := []) h

theorem precedes_cons (x y : Elem) (a b : List Elem) : Precedes (x :: a) (y :: b) ↔ ElemBefore x y ∨ (x = y ∧ Precedes a b) := by
  constructor
  · intro h
    rcases precedes_inv h with ⟨p, u, s, w, t, h1, h2, hb⟩ | ⟨u, t, h1, he⟩ | ⟨u, t, h1, he⟩
    · cases p with
      | nil =>
        obtain ⟨rfl, rfl⟩ := List.cons.inj h1
        obtain ⟨rfl, rfl⟩ := List.cons.inj h2
        exact .inl hb
      | cons z p =>
        obtain ⟨rfl, rfl⟩ := List.cons.inj h1
        obtain ⟨rfl, rfl⟩ := List.cons.inj h2
        exact .inr ⟨rfl, .differ hb⟩
    · obtain ⟨rfl, rfl⟩ := List.cons.inj h1
      exact .inr ⟨rfl, .early he⟩
    · obtain ⟨rfl, rfl⟩ := List.cons.inj h1
      exact .inr ⟨rfl, .late he⟩
  · rintro (h | ⟨rfl, h⟩)
    · exact .differ (p := []) h
    · rcases precedes_inv h with ⟨p, u, s, w, t, rfl, rfl, hb⟩ | ⟨u, t, rfl, he⟩ | ⟨u, t, rfl, he⟩
      · exact .differ (p := x :: p) hb
      · exact .early (p := x :: b) he
      · exact .late (p := x :: a) he

theorem code_spec : ∀ v w : List Elem, (cmpList cmpKey (code v) (code w) < 0 ↔ Precedes v w) ∧ (cmpList cmpKey (code v) (code w) = 0 ↔ v = w)
  | [], [] => by
    have : cmpList cmpKey (code []) (code []) = 0 := by decide
    rw [this]
    exact ⟨⟨fun h => absurd h (by decide), fun h => absurd h precedes_nil⟩, by simp⟩
  | [], y :: w => by
    have k := key_early y
    have e : cmpList cmpKey (code []) (code (y :: w)) = cmpKey (4, 0) (key y) := by
      show (if cmpKey (4, 0) (key y) ≠ 0 then cmpKey (4, 0) (key y) else _) = _
      rw [if_pos k.2.2.2]
    rw [e, precedes_nil_cons]
    exact ⟨k.2.1, fun h => absurd h k.2.2.2, fun h => absurd h (by simp)⟩
  | x :: v, [] => by
    have k := key_early x
    have e : cmpList cmpKey (code (x :: v)) (code []) = cmpKey (key x) (4, 0) := by
      show (if cmpKey (key x) (4, 0) ≠ 0 then cmpKey (key x) (4, 0) else _) = _
      rw [if_pos k.2.2.1]
    rw [e, precedes_cons_nil]
    exact ⟨k.1, fun h => absurd h k.2.2.1, fun h => absurd h (by simp)⟩
  | x :: v, y :: w => by
    have ih := code_spec v w
    have e : cmpList cmpKey (code (x :: v)) (code (y :: w)) =
      if cmpKey (key x) (key y) ≠ 0 then cmpKey (key x) (key y) else cmpList cmpKey (code v) (code w) := rfl
    rw [e, precedes_cons, ← key_before]
    by_cases h : x = y
    · have : cmpKey (key x) (key y) = 0 := by rw [cmpKey_eq, h]
      rw [if_neg (by simpa using this), this, ih.1, ih.2]
      simp [h]
    · have : cmpKey (key x) (key y) ≠ 0 := fun e => h (key_inj ((cmpKey_eq _ _).mp e))
      rw [if_pos this]
      simp [h, this]

/-! ### Texts -/

inductive Pieces : List Str → List Elem → Prop
  | nil : Pieces [] []
  | cons {p : Str} {x : Elem} {ps : List Str} {xs : List Elem} : Piece p x → Pieces ps xs → Pieces (p :: ps) (x :: xs)

theorem piece_chars {p : Str} {x : Elem} (h : Piece p x) : p ≠ [] ∧ ∀ c ∈ p, isDigit c = isNumber x ∧ c ≠ '.' := by
  cases h with
  | number hd =>
    refine ⟨hd.1, fun c hc => ?_⟩
    have := (numeral_decimal.mp hd.2).1 c hc
    exact ⟨isDigit_iff.mpr this, fun e => by rw [e] at this; exact absurd this (by unfold Digit; decide)⟩
  | _ => exact ⟨by decide, by decide⟩

/-- What is compared of a part. -/
def value : Elem → Option Int
  | .number n => some n
  | _ => none

theorem piece_bigInt {p : Str} {x : Elem} (h : Piece p x) : bigInt? p = value x := by
  cases h with
  | number hd =>
    have := decimal_iff.mp hd
    have hc := (numeral_decimal.mp hd.2).1
    unfold bigInt?
    split
    · exact absurd (hc '-' (by simp)) (by unfold Digit; decide)
    · exact absurd (hc '+' (by simp)) (by unfold Digit; decide)
    · rw [this]; rfl
  | _ => decide

def weight : Elem → Nat
  | .dev => 0
  | .alpha => 1
  | .beta => 2
  | .rc => 3
  | .number _ => 4
  | .patch => 5

theorem piece_weigh {p : Str} {x : Elem} (h : Piece p x) (hn : isNumber x = false) : weigh p = weight x := by
  cases h with
  | number _ => exact absurd hn (by simp [isNumber])
  | _ => decide

theorem cmpPart_key {p q : Str} {x y : Elem} (hx : Piece p x) (hy : Piece q y) : cmpPart p q = cmpKey (key x) (key y) := by
  unfold cmpPart
  rw [piece_bigInt hx, piece_bigInt hy]
  have e : weigh g!"#" = 4 := by decide
  have wx := piece_weigh hx
  have wy := piece_weigh hy
  cases x <;> cases y <;> simp only [value, cmpSpecial] <;> (try rw [wx rfl]) <;> (try rw [wy rfl]) <;> (try rw [e]) <;> rfl

theorem rest_key {p : Str} {x : Elem} (r : List Str) (h : Piece p x) : rest (p :: r) = cmpKey (key x) (4, 0) ∧ rest' (p :: r) = cmpKey (4, 0) (key x) := by
  unfold rest rest'
  rw [piece_bigInt h]
  have e : weigh g!"#" = 4 := by decide
  have w := piece_weigh h
  have c1 : isNumber x = false → cmpSpecial p g!"#" = cmpInt (weight x) 4 := fun hn => by unfold cmpSpecial; rw [w hn, e]; rfl
  have c2 : isNumber x = false → cmpSpecial g!"#" p = cmpInt 4 (weight x) := fun hn => by unfold cmpSpecial; rw [w hn, e]; rfl
  cases x with
  | number n => exact ⟨rfl, rfl⟩
  | _ =>
    rw [c1 rfl, c2 rfl]
    exact ⟨rfl, rfl⟩

theorem cmpParts_code {a b : List Str} {v w : List Elem} (ha : Pieces a v) (hb : Pieces b w) :
    cmpParts a b = cmpList cmpKey (code v) (code w) := by
  induction ha generalizing b w with
  | nil =>
    cases hb with
    | nil => decide
    | @cons q y b w h _ =>
      have k := key_early y
      show rest' (q :: b) = if cmpKey (4, 0) (key y) ≠ 0 then cmpKey (4, 0) (key y) else _
      rw [if_pos k.2.2.2, (rest_key b h).2]
  | @cons p x a v h _ ih =>
    cases hb with
    | nil =>
      have k := key_early x
      show rest (p :: a) = if cmpKey (key x) (4, 0) ≠ 0 then cmpKey (key x) (4, 0) else _
      rw [if_pos k.2.2.1, (rest_key a h).1]
    | @cons q y b w h2 h3 =>
      show (if cmpPart p q ≠ 0 then cmpPart p q else cmpParts a b) =
        if cmpKey (key x) (key y) ≠ 0 then cmpKey (key x) (key y) else cmpList cmpKey (code v) (code w)
      rw [cmpPart_key h h2, ih h3]

def dots (s : Str) : Str := s.map fun c => if c = '-' ∨ c = '_' ∨ c = '+' then '.' else c

theorem piece_dots {p : Str} {x : Elem} (h : Piece p x) : dots p = p := by
  cases h with
  | number hd =>
    have hc := (numeral_decimal.mp hd.2).1
    unfold dots
    conv => rhs; rw [← List.map_id p]
    refine List.map_congr_left fun c hm => ?_
    have hd := hc c hm
    rw [if_neg]
    · rfl
    · rintro (rfl | rfl | rfl) <;> exact absurd hd (by unfold Digit; decide)
  | _ => decide

theorem dots_append (a b : Str) : dots (a ++ b) = dots a ++ dots b := by unfold dots; exact List.map_append

theorem canon_piece {p r : Str} {x : Elem} (h : Piece p x) (prev : Bool) :
    canonLoop false prev (p ++ r) = p ++ canonLoop true (isNumber x) r := by
  obtain ⟨h0, hc⟩ := piece_chars h
  obtain ⟨c, p, rfl⟩ := List.exists_cons_of_ne_nil h0
  have ⟨h1, h2⟩ := hc c (List.mem_cons_self ..)
  rw [List.cons_append, canonLoop, if_neg h2, if_neg (by simp), h1, canon_run r p fun d hd => hc d (List.mem_cons_of_mem _ hd)]
  rfl

theorem text_head {s : Str} {y : Elem} {xs : List Elem} (h : Text s (y :: xs)) :
    ∃ c r, dots s = c :: r ∧ isDigit c = isNumber y ∧ c ≠ '.' := by
  have : ∀ {p : Str} (r : Str), Piece p y → ∃ c r', dots (p ++ r) = c :: r' ∧ isDigit c = isNumber y ∧ c ≠ '.' := by
    intro p r h
    obtain ⟨h0, hc⟩ := piece_chars h
    rw [dots_append, piece_dots h]
    obtain ⟨c, p, rfl⟩ := List.exists_cons_of_ne_nil h0
    exact ⟨c, p ++ dots r, rfl, hc c (List.mem_cons_self ..)⟩
  cases h with
  | one h => have := this [] h; rwa [List.append_nil] at this
  | sep h _ _ => exact this _ h
  | touch h _ _ => exact this _ h

theorem unlike_kind {x y : Elem} (h : Unlike x y) : isNumber x ≠ isNumber y := by
  cases h with
  | left h => cases y <;> simp_all [isNumber]
  | right h => cases x <;> simp_all [isNumber]

theorem text_canon {s : Str} {xs : List Elem} (h : Text s xs) : ∃ p ps, Pieces (p :: ps) xs ∧ ∀ prev,
    canonLoop false prev (dots s) = p ++ ps.flatMap ('.' :: ·) := by
  induction h with
  | @one p x h =>
    refine ⟨p, [], .cons h .nil, fun prev => ?_⟩
    have := canon_piece (r := []) h prev
    rw [List.append_nil] at this
    rw [piece_dots h, this]; rfl
  | @sep p r c x xs h hc _ ih =>
    obtain ⟨q, qs, h1, h2⟩ := ih
    refine ⟨p, q :: qs, .cons h h1, fun prev => ?_⟩
    have e : dots (c :: r) = '.' :: dots r := by
      unfold dots
      rw [List.map_cons]
      rcases hc with rfl | rfl | rfl | rfl <;> simp
    rw [dots_append, piece_dots h, e, canon_piece h, canonLoop, if_pos rfl, h2]
    simp
  | @touch p r x y xs h hr hu ih =>
    obtain ⟨q, qs, h1, h2⟩ := ih
    refine ⟨p, q :: qs, .cons h h1, fun prev => ?_⟩
    have t : canonLoop true (isNumber x) (dots r) = '.' :: canonLoop false (isNumber x) (dots r) := by
      obtain ⟨c, r', e, h3, h4⟩ := text_head hr
      rw [e, canonLoop, canonLoop, if_neg h4, if_neg h4, h3, if_pos ⟨rfl, unlike_kind hu⟩, if_neg (by simp)]
    rw [dots_append, piece_dots h, canon_piece h, t, h2]
    simp

theorem pieces_mem {ps : List Str} {xs : List Elem} (h : Pieces ps xs) : ∀ p ∈ ps, ∃ x, Piece p x := by
  induction h with
  | nil => simp
  | cons h _ ih =>
    intro p hp
    rcases List.mem_cons.mp hp with rfl | hp
    · exact ⟨_, h⟩
    · exact ih p hp

theorem text_start {s : Str} {v : List Elem} (h : Text s v) : trimPrefix s g!"v" = s ∧ trimPrefix s g!"V" = s := by
  have : ∀ {p : Str} {x : Elem} (r : Str), Piece p x → trimPrefix (p ++ r) g!"v" = p ++ r ∧ trimPrefix (p ++ r) g!"V" = p ++ r := by
    intro p x r h
    cases h with
    | number hd =>
      obtain ⟨c, t, rfl⟩ := List.exists_cons_of_ne_nil hd.1
      have hc := (numeral_decimal.mp hd.2).1 c (by simp)
      refine ⟨trim_digit hc, ?_⟩
      have : c ≠ 'V' := fun e => by rw [e] at hc; exact absurd hc (by unfold Digit; decide)
      simp [trimPrefix, hasPrefix, Ne.symm this]
    | _ => constructor <;> simp [trimPrefix, hasPrefix]
  cases h with
  | one h => have := this [] h; rwa [List.append_nil] at this
  | sep h _ _ => exact this _ h
  | touch h _ _ => exact this _ h

theorem written_pieces {s : Str} {v : List Elem} (h : Written s v) : Pieces (splitChar '.' (canonicalize s)) v := by
  have key : ∃ t, Text t v ∧ trimPrefix (trimPrefix s g!"v") g!"V" = t := by
    cases h with
    | plain h => exact ⟨s, h, by rw [(text_start h).1, (text_start h).2]⟩
    | @v t _ h =>
      have e : trimPrefix ('v' :: t) g!"v" = t := by simp [trimPrefix, hasPrefix]
      exact ⟨t, h, by rw [e, (text_start h).2]⟩
    | @V t _ h =>
      have e : trimPrefix ('V' :: t) g!"v" = 'V' :: t := by simp [trimPrefix, hasPrefix]
      have e2 : trimPrefix ('V' :: t) g!"V" = t := by simp [trimPrefix, hasPrefix]
      exact ⟨t, h, by rw [e, e2]⟩
  obtain ⟨t, ht, e⟩ := key
  obtain ⟨p, ps, h1, h2⟩ := text_canon ht
  unfold canonicalize
  rw [e]
  have h3 := h2 true
  unfold dots at h3
  rw [h3, split_joined]
  · exact h1
  · intro j hj hm
    obtain ⟨x, hx⟩ := pieces_mem h1 j hj
    exact ((piece_chars hx).2 '.' hm).2 rfl

theorem packagist_code {s t : Str} {v w : List Elem} (hs : Written s v) (ht : Written t w) :
    packagist s t = cmpList cmpKey (code v) (code w) := cmpParts_code (written_pieces hs) (written_pieces ht)

end Osv.Packagist
