import Verif.Lemmas.Precedence
/-! # Versions with more than three numbers, compared as semantic versions -/
namespace Osv.Semantic
open Str Spec Spec.ModText Spec.Precedence

theorem repr_decimal (n : Nat) : Decimal (Nat.repr n).toList n := by
  have e : (Nat.repr n).toList = Nat.toDigits 10 n := by simp [Nat.repr]
  rw [e]
  refine ⟨Nat.toDigits_ne_nil, numeral_decimal.mpr ⟨fun c hc => ?_, ?_⟩⟩
  · have := Nat.isDigit_of_mem_toDigits (by decide) (by decide) hc
    unfold Char.isDigit at this
    simp only [Bool.and_eq_true, decide_eq_true_eq] at this
    exact digit_nat.mpr ⟨this.1, this.2⟩
  · have := Nat.ofDigitChars_ten_toDigits (n := n)
    unfold decimal
    unfold Nat.ofDigitChars at this
    simp only [Nat.mul_comm 10] at this
    exact this

theorem scan_numbers {s : Str} {ns : List Nat} (h : NumbersText s ns) : ∀ comps e, scan comps [] e s = ⟨comps ++ ns, []⟩ := by
  induction h with
  | @one d n hd =>
    intro comps e
    obtain ⟨h1, h2⟩ := numeral_decimal.mp hd.2
    have := scan_digits d [] h1 comps [] e
    rw [List.append_nil, List.nil_append] at this
    rw [this]
    simp [scan, hd.1, h2]
  | @dot d r n ns hd _ ih =>
    intro comps e
    obtain ⟨h1, h2⟩ := numeral_decimal.mp hd.2
    rw [scan_digits d _ h1, List.nil_append, scan_dot hd.1, ih, h2]
    simp

theorem numbers_trim {s : Str} {ns : List Nat} (h : NumbersText s ns) : trimPrefix s g!"v" = s := by
  have : ∀ {d : Str} {n : Nat} (r : Str), Decimal d n → trimPrefix (d ++ r) g!"v" = d ++ r := by
    intro d n r hd
    obtain ⟨c, t, rfl⟩ := List.exists_cons_of_ne_nil hd.1
    exact trim_digit ((numeral_decimal.mp hd.2).1 c (by simp))
  cases h with
  | one hd => have := this [] hd; rwa [List.append_nil] at this
  | dot hd _ => exact this _ hd

/-- What stands behind the third number. -/
def tailText (ns : List Nat) : Str := ns.flatMap fun n => '.' :: (Nat.repr n).toList

theorem numbers_parse {s : Str} {x y z n : Nat} {ns : List Nat} (h : NumbersText s (x :: y :: z :: n :: ns)) :
    parseLike 3 s = ⟨[x, y, z], tailText (n :: ns)⟩ := by
  unfold parseLike
  rw [numbers_trim h, scan_numbers h]
  simp [tailText]

theorem tail_prerelease (n : Nat) (ns : List Nat) : prerelease (tailText (n :: ns)) = tailText (n :: ns) ∧
    splitChar '.' (tailText (n :: ns)) = [] :: (n :: ns).map fun n => (Nat.repr n).toList := by
  have no : ∀ (c : Char), ¬ Digit c → ∀ n : Nat, c ∉ (Nat.repr n).toList := fun c hc n hm =>
    hc ((numeral_decimal.mp (repr_decimal n).2).1 c hm)
  have e : tailText (n :: ns) = [] ++ ((n :: ns).map fun n => (Nat.repr n).toList).flatMap ('.' :: ·) := by
    rw [List.nil_append, List.flatMap_map]; rfl
  constructor
  · unfold prerelease
    rw [splitChar_of_not_mem]
    · simp [tailText, trimPrefix, hasPrefix]
    · unfold tailText
      simp only [List.mem_flatMap, List.mem_cons (a := '+') (b := '.'), not_exists, not_and, not_or]
      exact fun m _ => ⟨by decide, no '+' (by unfold Digit; decide) m⟩
  · rw [e, split_joined]
    intro j hj
    rcases List.mem_cons.mp hj with rfl | hj
    · simp
    · obtain ⟨m, _, rfl⟩ := List.mem_map.mp hj
      exact no '.' (by unfold Digit; decide) m

theorem cmpIdent_repr (m n : Nat) : cmpIdent (Nat.repr m).toList (Nat.repr n).toList = cmpInt m n := by
  have key : ∀ n : Nat, bigInt? (Nat.repr n).toList = some (n : Int) := by
    intro n
    have hd := repr_decimal n
    have h1 := (numeral_decimal.mp hd.2).1
    have h2 := decimal_iff.mp hd
    unfold bigInt?
    split
    · rename_i ds e
      exact absurd (h1 '-' (by rw [e]; simp)) (by unfold Digit; decide)
    · rename_i ds e
      exact absurd (h1 '+' (by rw [e]; simp)) (by unfold Digit; decide)
    · rw [h2]; rfl
  unfold cmpIdent
  rw [key, key]

theorem cmpIdents_repr : ∀ (a b : List Nat), cmpIdents (a.map fun n => (Nat.repr n).toList) (b.map fun n => (Nat.repr n).toList) =
    cmpList (fun (m n : Nat) => cmpInt m n) a b
  | [], [] => rfl
  | [], _ :: _ => rfl
  | _ :: _, [] => rfl
  | m :: a, n :: b => by
    simp only [List.map_cons, cmpIdents, cmpList]
    rw [cmpIdent_repr, cmpIdents_repr a b]

theorem long_semver {s t : Str} {ns ms : List Nat} (hs : NumbersText s ns) (ht : NumbersText t ms) (h1 : 3 < ns.length) (h2 : 3 < ms.length) :
    semver s t = cmpList (fun (m n : Nat) => cmpInt m n) ns ms := by
  match ns, ms, h1, h2 with
  | x :: y :: z :: n :: ns, x' :: y' :: z' :: m :: ms, _, _ =>
    unfold semver
    dsimp only
    rw [numbers_parse hs, numbers_parse ht]
    dsimp only
    have e : cmpComponents [x, y, z] [x', y', z'] =
      if cmpInt x x' ≠ 0 then cmpInt x x' else if cmpInt y y' ≠ 0 then cmpInt y y' else if cmpInt z z' ≠ 0 then cmpInt z z' else 0 := rfl
    have b : cmpBuild (tailText (n :: ns)) (tailText (m :: ms)) = cmpList (fun (m n : Nat) => cmpInt m n) (n :: ns) (m :: ms) := by
      unfold cmpBuild
      dsimp only
      rw [(tail_prerelease n ns).1, (tail_prerelease m ms).1, (tail_prerelease n ns).2, (tail_prerelease m ms).2]
      rw [if_neg (fun h => absurd h.1 (by simp [tailText])), if_neg (fun h => absurd h.2 (by simp [tailText]))]
      have : cmpIdent [] [] = 0 := by decide
      rw [cmpIdents, this, if_neg (by simp), cmpIdents_repr]
    rw [e, b]
    show _ = if cmpInt x x' ≠ 0 then cmpInt x x' else if cmpInt y y' ≠ 0 then cmpInt y y' else if cmpInt z z' ≠ 0 then cmpInt z z' else
      cmpList (fun (m n : Nat) => cmpInt m n) (n :: ns) (m :: ms)
    by_cases k1 : cmpInt x x' = 0 <;> by_cases k2 : cmpInt y y' = 0 <;> by_cases k3 : cmpInt z z' = 0 <;> simp [k1, k2, k3]

theorem long_before {s t : Str} {ns ms : List Nat} (hs : NumbersText s ns) (ht : NumbersText t ms) (h1 : 3 < ns.length) (h2 : 3 < ms.length) :
    (semver s t < 0 ↔ Before (· < ·) ns ms) ∧ (semver s t = 0 ↔ ns = ms) := by
  rw [long_semver hs ht h1 h2]
  have h := cmpList_before (c := fun (m n : Nat) => cmpInt m n) (P := fun _ => True)
    (fun a b _ _ => by have := cmpInt_eq a b; omega) ns ms (fun _ _ => trivial) (fun _ _ => trivial)
  refine ⟨h.1.trans ⟨fun hb => before_imp hb fun a _ b _ h => ?_, fun hb => before_imp hb fun a _ b _ h => ?_⟩, h.2⟩
  · have := cmpInt_lt a b; omega
  · have := cmpInt_lt a b; omega

theorem long_release {s t : Str} {x y z n : Nat} {ns : List Nat} (hs : NumbersText s (x :: y :: z :: n :: ns)) (ht : Written t ⟨x, y, z, []⟩) :
    semver s t < 0 := by
  obtain ⟨t', et, pt⟩ := written_parse ht
  unfold semver
  dsimp only
  rw [numbers_parse hs, pt 3 (Nat.le_refl _)]
  dsimp only
  rw [(cmpThree x y z x y z).2.mpr ⟨rfl, rfl, rfl⟩, if_neg (by simp)]
  unfold cmpBuild
  dsimp only
  rw [(tail_prerelease n ns).1, (ending_prerelease et).1 rfl, if_neg (by simp), if_pos ⟨by simp [tailText], rfl⟩]
  decide

end Osv.Semantic
