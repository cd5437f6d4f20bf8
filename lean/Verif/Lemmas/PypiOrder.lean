import Verif.Model.Pypi
import Verif.Spec.Pep440
import Verif.Lemmas.Semantic
import Verif.Lemmas.Precedence
/-! # The comparison of PyPI versions is the order of PEP 440 -/
namespace Osv.Pypi
open Str Semantic Spec.Pep440 Spec.ModText
open Spec.Precedence (Decimal Before)

/-! ### A total preorder -/

theorem cmpLegacy_total : Total cmpLegacy := by
  have h := (cmpInt_total.comap fun v : Ver => if v.legacy.isNone then 1 else 0).lex
    ((cmpStr_total.comap fun v : Ver => v.legacy.getD []))
  have e : cmpLegacy = fun a b => if cmpInt (if a.legacy.isNone then 1 else 0) (if b.legacy.isNone then 1 else 0) ≠ 0 then
      cmpInt (if a.legacy.isNone then 1 else 0) (if b.legacy.isNone then 1 else 0) else cmpStr (a.legacy.getD []) (b.legacy.getD []) := by
    funext a b
    unfold cmpLegacy
    cases a.legacy <;> cases b.legacy <;> simp [cmpInt, cmpStr]
  rw [e]
  exact h

def preKey (v : Ver) : Int := if trick v then -1 else match v.pre with
  | none => 10
  | some a => preIndex a.1

def preNumber (v : Ver) : Int := match v.pre with
  | none => 0
  | some a => a.2

theorem preIndex_range (l : Str) : 0 ≤ preIndex l ∧ preIndex l < 4 := by
  unfold preIndex
  split
  · omega
  · split
    · omega
    · split <;> omega

theorem trick_pre {v : Ver} (h : trick v = true) : v.pre = none := by
  unfold trick at h
  cases e : v.pre with
  | none => rfl
  | some a => simp [e] at h

theorem cmpInt_less {a b : Int} (h : a < b) : cmpInt a b = -1 := if_pos h

theorem cmpInt_more {a b : Int} (h : b < a) : cmpInt a b = 1 := by
  unfold cmpInt; rw [if_neg (by omega), if_pos h]

theorem cmpPre_key (v w : Ver) : cmpPre v w = if cmpInt (preKey v) (preKey w) ≠ 0 then cmpInt (preKey v) (preKey w)
    else cmpInt (preNumber v) (preNumber w) := by
  unfold cmpPre preKey preNumber
  cases hv : trick v with
  | true =>
    rw [trick_pre hv]
    cases hw : trick w with
    | true => rw [trick_pre hw]; rfl
    | false =>
      cases w.pre with
      | none => rfl
      | some b =>
        have := preIndex_range b.1
        simp [cmpInt_less (show (-1 : Int) < preIndex b.1 by omega)]
  | false =>
    cases hw : trick w with
    | true =>
      rw [trick_pre hw]
      cases v.pre with
      | none => rfl
      | some b =>
        have := preIndex_range b.1
        simp [cmpInt_more (show (-1 : Int) < preIndex b.1 by omega)]
    | false =>
      cases v.pre with
      | none =>
        cases w.pre with
        | none => rfl
        | some b =>
          have := preIndex_range b.1
          simp [cmpInt_more (show preIndex b.1 < 10 by omega)]
      | some a =>
        cases w.pre with
        | none =>
          have := preIndex_range a.1
          simp [cmpInt_less (show preIndex a.1 < 10 by omega)]
        | some b =>
          simp only [Bool.and_self, Bool.false_eq_true, if_false]
          by_cases h1 : preIndex a.1 < preIndex b.1
          · rw [cmpInt_less h1, if_neg (by omega), if_pos h1]; rfl
          · by_cases h2 : preIndex b.1 < preIndex a.1
            · rw [cmpInt_more h2, if_pos h2]; rfl
            · rw [if_neg h2, if_neg h1, show preIndex a.1 = preIndex b.1 by omega, cmpInt_total.refl, if_neg (by simp)]

theorem cmpPre_total : Total cmpPre := by
  have e : cmpPre = fun v w => if cmpInt (preKey v) (preKey w) ≠ 0 then cmpInt (preKey v) (preKey w)
    else cmpInt (preNumber v) (preNumber w) := by
    funext v w; exact cmpPre_key v w
  rw [e]
  exact (cmpInt_total.comap preKey).lex (cmpInt_total.comap preNumber)

theorem cmpPost_total : Total cmpPost := by
  have e : cmpPost = fun v w => cmpInt (match v.post with | none => -1 | some n => n) (match w.post with | none => -1 | some n => n) := by
    funext v w
    unfold cmpPost
    cases v.post <;> cases w.post <;> simp [cmpInt]
    · omega
    · omega
  rw [e]
  exact cmpInt_total.comap _

theorem cmpDev_total : Total cmpDev := by
  have h := (cmpInt_total.comap fun v : Ver => if v.dev.isNone then 1 else 0).lex ((cmpInt_total.comap fun v : Ver => ((v.dev.getD 0 : Nat) : Int)))
  have e : cmpDev = fun a b => if cmpInt (if a.dev.isNone then 1 else 0) (if b.dev.isNone then 1 else 0) ≠ 0 then
      cmpInt (if a.dev.isNone then 1 else 0) (if b.dev.isNone then 1 else 0) else cmpInt ((a.dev.getD 0 : Nat) : Int) ((b.dev.getD 0 : Nat) : Int) := by
    funext a b
    unfold cmpDev
    cases a.dev <;> cases b.dev <;> simp [cmpInt]
  rw [e]
  exact h

theorem cmpLocal_eq_list : cmpLocal = cmpList cmpSegment := by
  funext a b
  induction a generalizing b with
  | nil => cases b <;> rfl
  | cons x xs ih => cases b <;> simp [cmpLocal, cmpList, ih]

theorem compare_total : Total compare := by
  have h0 : Total fun (_ _ : Ver) => (0 : Int) := total_const
  have h7 : Total fun (v w : Ver) => cmpLocal v.loc w.loc := by
    rw [cmpLocal_eq_list]; exact (cmpList_total cmpSegment_total).comap _
  exact cmpLegacy_total.lex ((cmpInt_total.comap fun v : Ver => v.epoch).lex ((cmpComponents_total.comap fun v : Ver => v.release).lex
    (cmpPre_total.lex (cmpPost_total.lex (cmpDev_total.lex (h7.lex h0))))))

theorem pypi_total (legacy : Str → Str) : Total (pypi legacy) := compare_total.comap _

/-! ### Releases -/

theorem cmpAt_range' (a b : List Nat) : ∀ (n s : Nat),
    (cmpAt (fun (m n : Nat) => cmpInt m n) 0 (List.range' s n) a b < 0 ↔
      ∃ i, s ≤ i ∧ i < s + n ∧ (∀ j, s ≤ j → j < i → a.getD j 0 = b.getD j 0) ∧ a.getD i 0 < b.getD i 0) ∧
    (cmpAt (fun (m n : Nat) => cmpInt m n) 0 (List.range' s n) a b = 0 ↔ ∀ i, s ≤ i → i < s + n → a.getD i 0 = b.getD i 0) := by
  intro n
  induction n with
  | zero =>
    intro s
    refine ⟨⟨fun h => by simp [cmpAt] at h, fun ⟨i, h1, h2, _⟩ => by omega⟩, ⟨fun _ i h1 h2 => by omega, fun _ => rfl⟩⟩
  | succ n ih =>
    intro s
    have e : cmpAt (fun (m n : Nat) => cmpInt m n) 0 (List.range' s (n + 1)) a b =
        if cmpInt (a.getD s 0) (b.getD s 0) ≠ 0 then cmpInt (a.getD s 0) (b.getD s 0)
        else cmpAt (fun (m n : Nat) => cmpInt m n) 0 (List.range' (s + 1) n) a b := rfl
    rw [e]
    have l := cmpInt_lt (a.getD s 0) (b.getD s 0)
    have q := cmpInt_eq (a.getD s 0) (b.getD s 0)
    by_cases h : a.getD s 0 = b.getD s 0
    · rw [if_neg (by rw [h]; simp [cmpInt]), (ih (s + 1)).1, (ih (s + 1)).2]
      constructor
      · constructor
        · rintro ⟨i, h1, h2, h3, h4⟩
          refine ⟨i, by omega, by omega, fun j h5 h6 => ?_, h4⟩
          by_cases e : j = s
          · rw [e]; exact h
          · exact h3 j (by omega) h6
        · rintro ⟨i, h1, h2, h3, h4⟩
          have : i ≠ s := fun e => by rw [e, h] at h4; omega
          exact ⟨i, by omega, by omega, fun j h5 h6 => h3 j (by omega) h6, h4⟩
      · constructor
        · intro h1 i h2 h3
          by_cases e : i = s
          · rw [e]; exact h
          · exact h1 i (by omega) (by omega)
        · intro h1 i h2 h3
          exact h1 i (by omega) (by omega)
    · have hne : cmpInt (a.getD s 0) (b.getD s 0) ≠ 0 := fun e => h (by have := q.mp e; omega)
      rw [if_pos hne]
      constructor
      · rw [l]
        constructor
        · intro h1
          exact ⟨s, Nat.le_refl _, by omega, fun j h2 h3 => by omega, by omega⟩
        · rintro ⟨i, h1, h2, h3, h4⟩
          by_cases e : i = s
          · rw [e] at h4; omega
          · exact absurd (h3 s (Nat.le_refl _) (by omega)) h
      · exact ⟨fun e => absurd e hne, fun h1 => absurd (h1 s (Nat.le_refl _) (by omega)) h⟩

theorem getD_long {a : List Nat} {i : Nat} (h : a.length ≤ i) : a.getD i 0 = 0 := by
  rw [List.getD_eq_getElem?_getD, List.getElem?_eq_none h]; rfl

theorem release_spec (a b : List Nat) : (cmpComponents a b < 0 ↔ ReleaseBefore a b) ∧ (cmpComponents a b = 0 ↔ SameRelease a b) := by
  have e : cmpComponents a b = cmpAt (fun (m n : Nat) => cmpInt m n) 0 (List.range' 0 (Nat.max a.length b.length)) a b := by
    rw [← List.range_eq_range']; rfl
  have h1 : a.length ≤ Nat.max a.length b.length := Nat.le_max_left ..
  have h2 : b.length ≤ Nat.max a.length b.length := Nat.le_max_right ..
  obtain ⟨x, y⟩ := cmpAt_range' a b (Nat.max a.length b.length) 0
  rw [e, x, y]
  constructor
  · constructor
    · rintro ⟨i, _, _, h3, h4⟩
      exact ⟨i, fun j hj => h3 j (Nat.zero_le _) hj, h4⟩
    · rintro ⟨i, h3, h4⟩
      refine ⟨i, Nat.zero_le _, ?_, fun j _ hj => h3 j hj, h4⟩
      refine Classical.byContradiction fun hn => ?_
      rw [getD_long (a := b) (by omega)] at h4
      omega
  · constructor
    · intro h i
      by_cases hi : i < 0 + Nat.max a.length b.length
      · exact h i (Nat.zero_le _) hi
      · rw [getD_long (by omega), getD_long (by omega)]
    · exact fun h i _ _ => h i

/-! ### Suffixes -/

theorem sb_nil_nil : ¬ SuffixBefore [] [] := by
  intro h
  generalize e : ([] : List Suffix) = x at h
  cases h with
  | kind h => subst e; exact absurd h (Nat.lt_irrefl _)
  | number _ h => subst e; exact absurd h (Nat.lt_irrefl _)
  | next => cases e

theorem sb_nil_cons (y : Suffix) (t : List Suffix) : SuffixBefore [] (y :: t) ↔ 4 < place (some y) := by
  constructor
  · intro h
    cases h with
    | kind h => exact h
    | number h h' =>
      cases y with
      | pre p n => cases p <;> cases h
      | post n => cases h
      | dev n => cases h
  · exact fun h => .kind h

theorem sb_cons_nil (x : Suffix) (s : List Suffix) : SuffixBefore (x :: s) [] ↔ place (some x) < 4 := by
  constructor
  · intro h
    cases h with
    | kind h => exact h
    | number h h' => exact absurd h' (Nat.not_lt_zero _)
  · exact fun h => .kind h

theorem sb_cons_cons (x y : Suffix) (s t : List Suffix) : SuffixBefore (x :: s) (y :: t) ↔
    place (some x) < place (some y) ∨ (place (some x) = place (some y) ∧ number (some x) < number (some y)) ∨ (x = y ∧ SuffixBefore s t) := by
  constructor
  · intro h
    cases h with
    | kind h => exact .inl h
    | number h h' => exact .inr (.inl ⟨h, h'⟩)
    | next h => exact .inr (.inr ⟨rfl, h⟩)
  · rintro (h | ⟨h, h'⟩ | ⟨rfl, h⟩)
    · exact .kind h
    · exact .number h h'
    · exact .next h

def letter : Phase → Str
  | .alpha => g!"a"
  | .beta => g!"b"
  | .candidate => g!"rc"

theorem first_lt (x : Int) (xs : List Int) : (first (x :: xs) < 0 ↔ x < 0 ∨ (x = 0 ∧ first xs < 0)) ∧
    (first (x :: xs) = 0 ↔ x = 0 ∧ first xs = 0) := by
  rw [first]
  split <;> omega

/-- What a version has behind its release, as the library has it. -/
structure Reads (a : Ver) (v : Version) : Prop where
  pre : a.pre = v.pre.map fun x => (letter x.1, x.2)
  post : a.post = v.post
  dev : a.dev = v.dev

theorem cmpNat (m n : Nat) : (cmpInt m n < 0 ↔ m < n) ∧ (cmpInt m n = 0 ↔ m = n) := by
  have := cmpInt_lt m n
  have := cmpInt_eq m n
  omega

theorem devs (d d' : Option Nat) (a b : Ver) (h3 : a.dev = d) (h6 : b.dev = d') :
    (cmpDev a b < 0 ↔ SuffixBefore (d.toList.map .dev) (d'.toList.map .dev)) ∧ (cmpDev a b = 0 ↔ d = d') := by
  unfold cmpDev
  rw [h3, h6]
  cases d <;> cases d' <;>
    simp [sb_nil_nil, sb_nil_cons, sb_cons_nil, sb_cons_cons, place, number, cmpNat]

theorem posts (q q' d d' : Option Nat) (a b : Ver) (h2 : a.post = q) (h3 : a.dev = d) (h5 : b.post = q') (h6 : b.dev = d') :
    ((cmpPost a b < 0 ∨ (cmpPost a b = 0 ∧ cmpDev a b < 0)) ↔
      SuffixBefore (q.toList.map .post ++ d.toList.map .dev) (q'.toList.map .post ++ d'.toList.map .dev)) ∧
    ((cmpPost a b = 0 ∧ cmpDev a b = 0) ↔ q = q' ∧ d = d') := by
  have hd := devs d d' a b h3 h6
  unfold cmpPost
  rw [h2, h5, hd.1, hd.2]
  cases q with
  | none =>
    cases q' with
    | none => simp
    | some n => cases d <;> simp [sb_nil_cons, sb_cons_cons, place]
  | some m =>
    cases q' with
    | none => cases d' <;> simp [sb_cons_nil, sb_cons_cons, place]
    | some n => simp [sb_cons_cons, place, number, cmpNat]

theorem pres (v w : Version) (a b : Ver) (ha : Reads a v) (hb : Reads b w) :
    ((cmpPre a b < 0 ∨ (cmpPre a b = 0 ∧ (cmpPost a b < 0 ∨ (cmpPost a b = 0 ∧ cmpDev a b < 0)))) ↔ SuffixBefore v.suffixes w.suffixes) ∧
    ((cmpPre a b = 0 ∧ cmpPost a b = 0 ∧ cmpDev a b = 0) ↔ v.pre = w.pre ∧ v.post = w.post ∧ v.dev = w.dev) := by
  have hp := posts v.post w.post v.dev w.dev a b ha.post ha.dev hb.post hb.dev
  unfold Version.suffixes
  rw [hp.1, hp.2, List.append_assoc, List.append_assoc]
  unfold cmpPre trick
  rw [ha.pre, hb.pre, ha.post, hb.post, ha.dev, hb.dev]
  rcases v.pre with _ | ⟨p, k⟩
  · rcases w.pre with _ | ⟨p', k'⟩
    · rcases v.post with _ | q <;> rcases w.post with _ | q' <;> rcases v.dev with _ | d <;> rcases w.dev with _ | d' <;>
        simp [sb_nil_nil, sb_nil_cons, sb_cons_nil, sb_cons_cons, place, number]
    · cases p' <;> rcases v.post with _ | q <;> rcases v.dev with _ | d <;> simp [sb_nil_cons, sb_cons_cons, place]
  · rcases w.pre with _ | ⟨p', k'⟩
    · cases p <;> rcases w.post with _ | q <;> rcases w.dev with _ | d <;> simp [sb_cons_nil, sb_cons_cons, place]
    · cases p <;> cases p' <;> simp [sb_cons_cons, place, number, letter, preIndex, cmpNat, Option.map]

/-! ### Local versions -/

theorem alnum_bigInt {d : Str} (h : ∀ c ∈ d, Digit c ∨ ('a' ≤ c ∧ c ≤ 'z')) : bigInt? d = (digits? d).map Int.ofNat := by
  unfold bigInt?
  split
  · exact absurd (h '-' (by simp)) (by unfold Digit; decide)
  · exact absurd (h '+' (by simp)) (by unfold Digit; decide)
  · rfl

theorem segText_chars {d : Str} {x : Seg} (h : SegText d x) : d ≠ [] ∧ ∀ c ∈ d, Digit c ∨ ('a' ≤ c ∧ c ≤ 'z') := by
  cases h with
  | number hd => exact ⟨hd.1, fun c hc => .inl ((numeral_decimal.mp hd.2).1 c hc)⟩
  | text h1 h2 =>
    obtain ⟨c, hc, _⟩ := h2
    exact ⟨fun e => by rw [e] at hc; exact absurd hc (by simp), h1⟩

def segValue : Seg → Option Int
  | .number n => some n
  | .text _ => none

theorem seg_bigInt {d : Str} {x : Seg} (h : SegText d x) : bigInt? d = segValue x := by
  obtain ⟨h0, h1⟩ := segText_chars h
  rw [alnum_bigInt h1]
  cases h with
  | number hd => rw [decimal_iff.mp hd]; rfl
  | text _ h2 => rw [(digits_none h0).mpr h2]; rfl

def cmpSeg : Seg → Seg → Int
  | .number m, .number n => cmpInt m n
  | .text s, .text t => cmpStr s t
  | .number _, .text _ => 1
  | .text _, .number _ => -1

theorem cmpSegment_seg {a b : Str} {x y : Seg} (hx : SegText a x) (hy : SegText b y) : cmpSegment a b = cmpSeg x y := by
  unfold cmpSegment
  rw [seg_bigInt hx, seg_bigInt hy]
  cases hx <;> cases hy <;> rfl

theorem cmpSeg_spec (x y : Seg) : (cmpSeg x y < 0 ↔ SegBefore x y) ∧ (cmpSeg x y = 0 ↔ x = y) := by
  cases x with
  | number m =>
    cases y with
    | number n =>
      have := cmpNat m n
      exact ⟨this.1.trans ⟨.numbers, fun h => by cases h; assumption⟩, by rw [cmpSeg, this.2]; simp⟩
    | text t => exact ⟨⟨fun h => absurd h (by simp [cmpSeg]), fun h => by cases h⟩, by simp [cmpSeg]⟩
  | text s =>
    cases y with
    | number n => exact ⟨⟨fun _ => .mixed, fun _ => by simp [cmpSeg]⟩, by simp [cmpSeg]⟩
    | text t =>
      exact ⟨(cmpStr_before s t).trans ⟨.texts, fun h => by cases h; assumption⟩, by rw [cmpSeg, cmpStr_eq]; simp⟩

inductive SegsRead : List Str → List Seg → Prop
  | nil : SegsRead [] []
  | cons {d : Str} {x : Seg} {ds : List Str} {xs : List Seg} : SegText d x → SegsRead ds xs → SegsRead (d :: ds) (x :: xs)

theorem cmpLocal_segs {a b : List Str} {x y : List Seg} (hx : SegsRead a x) (hy : SegsRead b y) : cmpLocal a b = cmpList cmpSeg x y := by
  induction hx generalizing b y with
  | nil => cases hy <;> rfl
  | cons h1 _ ih =>
    cases hy with
    | nil => rfl
    | cons h2 h3 => simp only [cmpLocal, cmpList]; rw [cmpSegment_seg h1 h2, ih h3]

/-- The parts of a local version, where none is an empty part. -/
inductive LocReads : List Str → List Seg → Prop
  | none : LocReads [[]] []
  | some {d : Str} {x : Seg} {ds : List Str} {xs : List Seg} : SegText d x → SegsRead ds xs → LocReads (d :: ds) (x :: xs)

theorem cmpSegment_empty {d : Str} {x : Seg} (h : SegText d x) : cmpSegment [] d = -1 ∧ cmpSegment d [] = 1 := by
  obtain ⟨c, r, e⟩ := List.exists_cons_of_ne_nil (segText_chars h).1
  have e0 : bigInt? [] = none := rfl
  unfold cmpSegment
  rw [seg_bigInt h, e0]
  cases h with
  | number _ => exact ⟨rfl, rfl⟩
  | text _ _ => rw [e]; exact ⟨rfl, rfl⟩

theorem local_spec {a b : List Str} {x y : List Seg} (hx : LocReads a x) (hy : LocReads b y) :
    (cmpLocal a b < 0 ↔ Before SegBefore x y) ∧ (cmpLocal a b = 0 ↔ x = y) := by
  cases hx with
  | none =>
    cases hy with
    | none => exact ⟨⟨fun h => absurd h (by decide), fun h => absurd h before_nil⟩, by decide⟩
    | some h _ =>
      simp only [cmpLocal, (cmpSegment_empty h).1]
      exact ⟨⟨fun _ => Before.longer (p := []), fun _ => by simp⟩, by simp⟩
  | some h1 h2 =>
    cases hy with
    | none =>
      simp only [cmpLocal, (cmpSegment_empty h1).2]
      exact ⟨⟨fun h => absurd h (by simp), fun h => absurd h before_nil⟩, by simp⟩
    | some h3 h4 =>
      rw [cmpLocal_segs (.cons h1 h2) (.cons h3 h4)]
      have key : ∀ s t : List Seg, _ := fun s t => cmpList_before (c := cmpSeg) (P := fun _ => True) (fun a b _ _ => (cmpSeg_spec a b).2) s t
        (fun _ _ => trivial) (fun _ _ => trivial)
      refine ⟨(key _ _).1.trans ?_, (key _ _).2⟩
      exact ⟨fun h => before_imp h fun a _ b _ h => (cmpSeg_spec a b).1.mp h, fun h => before_imp h fun a _ b _ h => (cmpSeg_spec a b).1.mpr h⟩

/-! ### Versions -/

structure ReadsAs (a : Ver) (v : Version) : Prop extends Reads a v where
  epoch : a.epoch = v.epoch
  release : a.release = v.release
  loc : LocReads a.loc v.loc
  legacy : a.legacy = none

theorem suffixes_eq (v w : Version) : v.suffixes = w.suffixes ↔ v.pre = w.pre ∧ v.post = w.post ∧ v.dev = w.dev := by
  unfold Version.suffixes
  rcases v.pre with _ | ⟨p, k⟩ <;> rcases w.pre with _ | ⟨p', k'⟩ <;> rcases v.post with _ | q <;> rcases w.post with _ | q' <;>
    rcases v.dev with _ | d <;> rcases w.dev with _ | d' <;> simp [and_assoc]

theorem compare_spec {a b : Ver} {v w : Version} (ha : ReadsAs a v) (hb : ReadsAs b w) :
    (compare a b < 0 ↔ Precedes v w) ∧ (compare a b = 0 ↔ Same v w) := by
  have hl : cmpLegacy a b = 0 := by unfold cmpLegacy; rw [ha.legacy, hb.legacy]
  have he := cmpNat v.epoch w.epoch
  have hr := release_spec v.release w.release
  have hp := pres v w a b ha.toReads hb.toReads
  have hc := local_spec ha.loc hb.loc
  unfold compare
  simp only [(first_lt _ _).1, (first_lt _ _).2, hl]
  rw [ha.epoch, hb.epoch, ha.release, hb.release, he.1, he.2, hr.1, hr.2, hc.1, hc.2]
  have e0 : first [] = 0 := rfl
  rw [e0]
  constructor
  · constructor
    · rintro (h | ⟨-, h | ⟨h1, h | ⟨h2, h⟩⟩⟩)
      · omega
      · exact .epoch h
      · exact .release h1 h
      · have key : SuffixBefore v.suffixes w.suffixes ∨ (v.suffixes = w.suffixes ∧ Before SegBefore v.loc w.loc) := by
          rcases h with h | ⟨h3, h | ⟨h4, h | ⟨h5, h | ⟨_, h⟩⟩⟩⟩
          · exact .inl (hp.1.mp (.inl h))
          · exact .inl (hp.1.mp (.inr ⟨h3, .inl h⟩))
          · exact .inl (hp.1.mp (.inr ⟨h3, .inr ⟨h4, h⟩⟩))
          · exact .inr ⟨(suffixes_eq v w).mpr (hp.2.mp ⟨h3, h4, h5⟩), h⟩
          · omega
        rcases key with h | ⟨h, h'⟩
        · exact .suffix h1 h2 h
        · exact .loc h1 h2 h h'
    · intro h
      cases h with
      | epoch h => exact .inr ⟨trivial, .inl h⟩
      | release h1 h => exact .inr ⟨trivial, .inr ⟨h1, .inl h⟩⟩
      | suffix h1 h2 h =>
        refine .inr ⟨trivial, .inr ⟨h1, .inr ⟨h2, ?_⟩⟩⟩
        rcases hp.1.mpr h with h | ⟨h3, h | ⟨h4, h⟩⟩
        · exact .inl h
        · exact .inr ⟨h3, .inl h⟩
        · exact .inr ⟨h3, .inr ⟨h4, .inl h⟩⟩
      | loc h1 h2 h3 h =>
        obtain ⟨p1, p2, p3⟩ := hp.2.mpr ((suffixes_eq v w).mp h3)
        exact .inr ⟨trivial, .inr ⟨h1, .inr ⟨h2, .inr ⟨p1, .inr ⟨p2, .inr ⟨p3, .inl h⟩⟩⟩⟩⟩⟩
  · unfold Same
    constructor
    · rintro ⟨-, h1, h2, h3, h4, h5, h6, -⟩
      obtain ⟨p1, p2, p3⟩ := hp.2.mp ⟨h3, h4, h5⟩
      exact ⟨h1, h2, p1, p2, p3, h6⟩
    · rintro ⟨h1, h2, p1, p2, p3, h6⟩
      obtain ⟨h3, h4, h5⟩ := hp.2.mpr ⟨p1, p2, p3⟩
      exact ⟨trivial, h1, h2, h3, h4, h5, h6, rfl⟩

end Osv.Pypi
