import Verif.Go.Str
/-!
# Standard base64 (`encoding/base64`, `StdEncoding`)

Used by `encoding/json` for `[]byte` fields.
-/
namespace Osv
namespace Base64

/-- Alphabet. -/
def enc6 (n : Nat) : Char :=
  if n < 26 then Char.ofNat (65 + n)
  else if n < 52 then Char.ofNat (97 + (n - 26))
  else if n < 62 then Char.ofNat (48 + (n - 52))
  else if n = 62 then '+'
  else '/'

/-- Value of a character of the alphabet. -/
def dec6 (c : Char) : Option Nat :=
  if 'A' ≤ c ∧ c ≤ 'Z' then some (c.toNat - 65)
  else if 'a' ≤ c ∧ c ≤ 'z' then some (c.toNat - 97 + 26)
  else if '0' ≤ c ∧ c ≤ '9' then some (c.toNat - 48 + 52)
  else if c = '+' then some 62
  else if c = '/' then some 63
  else none

/-- `StdEncoding.EncodeToString`. -/
def encode : List UInt8 → Str
  | [] => []
  | [a] => [enc6 (a.toNat / 4), enc6 (a.toNat % 4 * 16), '=', '=']
  | [a, b] => [enc6 (a.toNat / 4), enc6 (a.toNat % 4 * 16 + b.toNat / 16), enc6 (b.toNat % 16 * 4), '=']
  | a :: b :: c :: r =>
    enc6 (a.toNat / 4) :: enc6 (a.toNat % 4 * 16 + b.toNat / 16) ::
      enc6 (b.toNat % 16 * 4 + c.toNat / 64) :: enc6 (c.toNat % 64) :: encode r

/-- `decodeQuantum`, after removing line breaks. -/
def decodeQ : Str → Option (List UInt8)
  | [] => some []
  | a :: b :: c :: d :: r =>
    (dec6 a).bind fun x => (dec6 b).bind fun y =>
    let b1 := UInt8.ofNat (x * 4 + y / 16)
    if c = '=' then (if d = '=' ∧ r = [] then some [b1] else none)
    else (dec6 c).bind fun z =>
      let b2 := UInt8.ofNat (y % 16 * 16 + z / 4)
      if d = '=' then (if r = [] then some [b1, b2] else none)
      else (dec6 d).bind fun w => (decodeQ r).map fun rest => b1 :: b2 :: UInt8.ofNat (z % 4 * 64 + w) :: rest
  | _ => none

/-- `StdEncoding.Decode`: line breaks are skipped, trailing bits are not checked. -/
def decode (s : Str) : Option (List UInt8) := decodeQ (s.filter fun c => c != '\n' && c != '\r')

theorem dec6_enc6 (n : Nat) (h : n < 64) : dec6 (enc6 n) = some n := by
  have : ∀ n : Fin 64, dec6 (enc6 n.val) = some n.val := by decide
  exact this ⟨n, h⟩

theorem enc6_facts (n : Nat) : enc6 n ≠ '=' ∧ enc6 n ≠ '\n' ∧ enc6 n ≠ '\r' := by
  by_cases h : n < 64
  · have : ∀ n : Fin 64, enc6 n.val ≠ '=' ∧ enc6 n.val ≠ '\n' ∧ enc6 n.val ≠ '\r' := by decide
    exact this ⟨n, h⟩
  · have : enc6 n = '/' := by
      unfold enc6
      rw [if_neg (by omega), if_neg (by omega), if_neg (by omega), if_neg (by omega)]
    rw [this]; decide

theorem ofNat_eq (a : UInt8) {n : Nat} (h : n = a.toNat) : UInt8.ofNat n = a := by
  subst h; simp

theorem decodeQ_encode : (l : List UInt8) → decodeQ (encode l) = some l
  | [] => rfl
  | [a] => by
    have ha := a.toNat_lt
    rw [encode, decodeQ, dec6_enc6 _ (by omega), dec6_enc6 _ (by omega)]
    simp only [Option.bind_some, and_self, if_true]
    rw [ofNat_eq a (by omega)]
  | [a, b] => by
    have ha := a.toNat_lt
    have hb := b.toNat_lt
    rw [encode, decodeQ, dec6_enc6 _ (by omega), dec6_enc6 _ (by omega), dec6_enc6 _ (by omega)]
    simp only [Option.bind_some, (enc6_facts _).1, if_false, if_true]
    rw [ofNat_eq a (by omega), ofNat_eq b (by omega)]
  | a :: b :: c :: r => by
    have ha := a.toNat_lt
    have hb := b.toNat_lt
    have hc := c.toNat_lt
    rw [encode, decodeQ, dec6_enc6 _ (by omega), dec6_enc6 _ (by omega), dec6_enc6 _ (by omega),
      dec6_enc6 _ (by omega), decodeQ_encode r]
    simp only [Option.bind_some, (enc6_facts _).1, if_false, Option.map_some]
    rw [ofNat_eq a (by omega), ofNat_eq b (by omega), ofNat_eq c (by omega)]

theorem filter_encode : (l : List UInt8) → (encode l).filter (fun c => c != '\n' && c != '\r') = encode l
  | [] => rfl
  | [a] => by simp [encode, enc6_facts]
  | [a, b] => by simp [encode, enc6_facts]
  | a :: b :: c :: r => by simp [encode, enc6_facts, filter_encode r]

/-- Decoding what was encoded. -/
theorem decode_encode (l : List UInt8) : decode (encode l) = some l := by
  rw [decode, filter_encode, decodeQ_encode]

end Base64
end Osv
