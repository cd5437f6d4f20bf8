import Verif.Lemmas.Precedence
import Verif.Model.CranVersion
import Verif.Spec.CranVersion
/-! # The comparison of the versions of R packages -/
namespace Osv.CranVersion
open Str Semantic Spec Spec.ModText Spec.CranVersion
open Spec.Precedence (Decimal Before)

theorem components_step (a b : List Nat) (n : Nat) (x y : Nat) (a' b' : List Nat) (h : Nat.max a.length b.length = n + 1)
    (hx : a.getD 0 0 = x) (hy : b.getD 0 0 = y) (ha : ∀ i, a.getD (i + 1) 0 = a'.getD i 0) (hb : ∀ i, b.getD (i + 1) 0 = b'.getD i 0)
    (hl : Nat.max a'.length b'.length = n) : cmpComponents a b = if cmpInt x y ≠ 0 then cmpInt x y else cmpComponents a' b' := by
  unfold cmpComponents
  rw [h, hl, List.range_succ_eq_map, List.map_cons, List.foldr_cons, hx, hy, List.map_map]
  have : ((fun i => cmpInt (a.getD i 0 : Nat) (b.getD i 0 : Nat)) ∘ Nat.succ) = fun i => cmpInt (a'.getD i 0 : Nat) (b'.getD i 0 : Nat) := by
    funext i
    simp only [Function.comp, Nat.succ_eq_add_one, ha, hb]
  rw [this]

theorem components_cons (x y : Nat) (a b : List Nat) :
    cmpComponents (x :: a) (y :: b) = if cmpInt x y ≠ 0 then cmpInt x y else cmpComponents a b := by
  refine components_step (x :: a) (y :: b) (Nat.max a.length b.length) x y a b ?_ rfl rfl (fun _ => rfl) (fun _ => rfl) rfl
  simp only [List.length_cons]
  exact Nat.add_max_add_right a.length b.length 1

theorem components_nil_cons (y : Nat) (b : List Nat) :
    cmpComponents [] (y :: b) = if cmpInt (0 : Nat) y ≠ 0 then cmpInt (0 : Nat) y else cmpComponents [] b := by
  refine components_step [] (y :: b) b.length 0 y [] b ?_ rfl rfl (fun _ => rfl) (fun _ => rfl) ?_
  · exact Nat.max_eq_right (Nat.zero_le _)
  · exact Nat.max_eq_right (Nat.zero_le _)

theorem components_cons_nil (x : Nat) (a : List Nat) :
    cmpComponents (x :: a) [] = if cmpInt x (0 : Nat) ≠ 0 then cmpInt x (0 : Nat) else cmpComponents a [] := by
  refine components_step (x :: a) [] a.length x 0 a [] ?_ rfl rfl (fun _ => rfl) (fun _ => rfl) ?_
  · exact Nat.max_eq_left (Nat.zero_le _)
  · exact Nat.max_eq_left (Nat.zero_le _)

theorem components_nil_left : ∀ b : List Nat, cmpComponents [] b = -1 ∨ cmpComponents [] b = 0
  | [] => .inr rfl
  | y :: b => by
    rw [components_nil_cons]
    by_cases h : y = 0
    · subst h
      rw [if_neg (by decide)]
      exact components_nil_left b
    · have e : cmpInt (0 : Nat) y = -1 := by
        unfold cmpInt
        rw [if_pos (by omega)]
      rw [e]
      exact .inl rfl

theorem components_nil_right : ∀ a : List Nat, cmpComponents a [] = 1 ∨ cmpComponents a [] = 0
  | [] => .inr rfl
  | x :: a => by
    rw [components_cons_nil]
    by_cases h : x = 0
    · subst h
      rw [if_neg (by decide)]
      exact components_nil_right a
    · have e : cmpInt x (0 : Nat) = 1 := by
        unfold cmpInt
        rw [if_neg (by omega), if_pos (by omega)]
      rw [e]
      exact .inl rfl

theorem parts_list : ∀ a b : List Nat, cmpParts a b = cmpList (fun (m n : Nat) => cmpInt m n) a b
  | [], [] => rfl
  | [], y :: b => by
    have : cmpParts [] (y :: b) = -1 := by
      unfold cmpParts
      rcases components_nil_left (y :: b) with h | h
      · rw [h]; rfl
      · rw [h, if_neg (by simp)]
        unfold cmpInt
        rw [if_pos (by simp only [List.length_cons, List.length_nil]; omega)]
    rw [this]; rfl
  | x :: a, [] => by
    have : cmpParts (x :: a) [] = 1 := by
      unfold cmpParts
      rcases components_nil_right (x :: a) with h | h
      · rw [h]; rfl
      · rw [h, if_neg (by simp)]
        unfold cmpInt
        rw [if_neg (by simp only [List.length_cons, List.length_nil]; omega), if_pos (by simp only [List.length_cons, List.length_nil]; omega)]
    rw [this]; rfl
  | x :: a, y :: b => by
    have ih := parts_list a b
    unfold cmpParts at ih ⊢
    rw [components_cons]
    simp only [cmpList]
    rw [← ih]
    by_cases h : cmpInt x y = 0
    · have e : cmpInt ((x :: a).length : Nat) ((y :: b).length : Nat) = cmpInt (a.length : Nat) (b.length : Nat) := by
        unfold cmpInt
        simp only [List.length_cons]
        split <;> split <;> (try split) <;> (try split) <;> omega
      simp only [h, ne_eq, not_true_eq_false, if_false]
      rw [e]
    · simp [h]

theorem parts_total : Total cmpParts := by
  have : cmpParts = cmpList (fun (m n : Nat) => cmpInt m n) := by funext a b; exact parts_list a b
  rw [this]
  exact cmpList_total (cmpInt_total.comap fun n : Nat => (n : Int))

theorem parts_before (a b : List Nat) : (cmpParts a b < 0 ↔ Precedes a b) ∧ (cmpParts a b = 0 ↔ a = b) := by
  rw [parts_list]
  have h := cmpList_before (c := fun (m n : Nat) => cmpInt m n) (P := fun _ => True)
    (fun a b _ _ => by have := cmpInt_eq a b; omega) a b (fun _ _ => trivial) (fun _ _ => trivial)
  refine ⟨h.1.trans ⟨fun hb => before_imp hb fun a _ b _ h => ?_, fun hb => before_imp hb fun a _ b _ h => ?_⟩, h.2⟩
  · have := cmpInt_lt a b; omega
  · have := cmpInt_lt a b; omega

def dots (s : Str) : Str := s.map fun c => if c = '-' then '.' else c

theorem digits_dots {d : Str} {n : Nat} (h : Decimal d n) : dots d = d ∧ '.' ∉ d := by
  have hc := (numeral_decimal.mp h.2).1
  refine ⟨?_, fun hm => absurd (hc '.' hm) (by unfold Digit; decide)⟩
  unfold dots
  conv => rhs; rw [← List.map_id d]
  refine List.map_congr_left fun c hm => ?_
  rw [if_neg (fun e => by rw [e] at hm; exact absurd (hc '-' hm) (by unfold Digit; decide))]
  rfl

theorem decimal_value {d : Str} {n : Nat} (other : Str → Nat) (h : Decimal d n) : ((bigInt? d).map Int.toNat).getD (other d) = n := by
  have hc := (numeral_decimal.mp h.2).1
  have e := decimal_iff.mp h
  unfold bigInt?
  split
  · exact absurd (hc '-' (by simp)) (by unfold Digit; decide)
  · exact absurd (hc '+' (by simp)) (by unfold Digit; decide)
  · rw [e]; rfl

theorem written_parts {s : Str} {v : List Nat} (other : Str → Nat) (h : Written s v) : ∃ p ps, dots s = p ++ ps.flatMap ('.' :: ·) ∧
    (∀ j ∈ p :: ps, '.' ∉ j) ∧ (p :: ps).map (fun p => ((bigInt? p).map Int.toNat).getD (other p)) = v := by
  induction h with
  | @one d n hd =>
    refine ⟨d, [], by simpa using (digits_dots hd).1, by simpa using (digits_dots hd).2, ?_⟩
    simp only [List.map_cons, List.map_nil]
    rw [decimal_value other hd]
  | @sep d r c n ns hd hc _ ih =>
    obtain ⟨p, ps, h1, h2, h3⟩ := ih
    refine ⟨d, p :: ps, ?_, ?_, ?_⟩
    · have e : dots (d ++ c :: r) = dots d ++ '.' :: dots r := by
        unfold dots
        rw [List.map_append, List.map_cons]
        rcases hc with rfl | rfl <;> simp
      rw [e, (digits_dots hd).1, h1]
      simp
    · intro j hj
      rcases List.mem_cons.mp hj with rfl | hj
      · exact (digits_dots hd).2
      · exact h2 j hj
    · rw [List.map_cons, decimal_value other hd, h3]

theorem written_parse_cran {s : Str} {v : List Nat} (other : Str → Nat) (h : Written s v) : parse other s = v := by
  obtain ⟨p, ps, h1, h2, h3⟩ := written_parts other h
  unfold parse
  unfold dots at h1
  rw [h1, split_joined p ps h2, h3]

end Osv.CranVersion
