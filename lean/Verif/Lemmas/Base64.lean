import Verif.Spec.CacheFile
/-! # Base64 and bits -/
namespace Osv
open Spec
namespace Base64

theorem enc6_alphabet (n : Nat) (h : n < 64) : base64Alphabet[n]? = some (enc6 n) := by
  have : ∀ n : Fin 64, base64Alphabet[n.val]? = some (enc6 n.val) := by decide +kernel
  exact this ⟨n, h⟩

theorem alphabet_lt {n : Nat} {c : Char} (h : base64Alphabet[n]? = some c) : n < 64 := (List.getElem?_eq_some_iff.1 h).1

theorem alphabet_dec6 {n : Nat} {c : Char} (h : base64Alphabet[n]? = some c) : dec6 c = some n ∧ c ≠ '=' := by
  have hn := alphabet_lt h
  rw [enc6_alphabet n hn] at h
  injection h with h
  subst h
  exact ⟨dec6_enc6 n hn, (enc6_facts n).1⟩

theorem dec6_alphabet {n : Nat} {c : Char} (h : dec6 c = some n) : base64Alphabet[n]? = some c := by
  have hc : c = Char.ofNat c.toNat := (Char.ofNat_toNat c).symm
  have hr : ∀ k : Nat, c.toNat < 128 → base64Alphabet[k]? = some (Char.ofNat c.toNat) → base64Alphabet[k]? = some c := by
    intro k _ h
    rw [← hc] at h
    exact h
  have all : ∀ k : Fin 128, ∀ m, dec6 (Char.ofNat k.val) = some m → base64Alphabet[m]? = some (Char.ofNat k.val) := by
    have : ∀ k : Fin 128, (dec6 (Char.ofNat k.val)).all fun m => base64Alphabet[m]? == some (Char.ofNat k.val) := by decide +kernel
    intro k m hm
    have := this k
    rw [hm] at this
    simpa using this
  by_cases hlt : c.toNat < 128
  · have := all ⟨c.toNat, hlt⟩ n
    simp only [Char.ofNat_toNat] at this
    exact this h
  · exfalso
    have hge : ∀ d : Char, d.toNat < 128 → ¬ c ≤ d := by
      intro d hd hle
      have : c.toNat ≤ d.toNat := hle
      omega
    have e1 : c ≠ '+' := by rintro rfl; exact hlt (by decide)
    have e2 : c ≠ '/' := by rintro rfl; exact hlt (by decide)
    unfold dec6 at h
    rw [if_neg fun x => hge _ (by decide) x.2, if_neg fun x => hge _ (by decide) x.2, if_neg fun x => hge _ (by decide) x.2, if_neg e1,
      if_neg e2] at h
    cases h

theorem take_bits (y : Nat) (h : y < 64) : (bits 6 y).take 2 = bits 2 (y / 16) ∧ (bits 6 y).take 4 = bits 4 (y / 4) ∧
    (bits 6 y).drop 2 = bits 4 (y % 16) ∧ (bits 6 y).drop 4 = bits 2 (y % 4) := by
  have : ∀ y : Fin 64, (bits 6 y.val).take 2 = bits 2 (y.val / 16) ∧ (bits 6 y.val).take 4 = bits 4 (y.val / 4) ∧
      (bits 6 y.val).drop 2 = bits 4 (y.val % 16) ∧ (bits 6 y.val).drop 4 = bits 2 (y.val % 4) := by
    decide +kernel
  exact this ⟨y, h⟩

theorem first_bits (x y : Nat) (hx : x < 64) (hy : y < 64) :
    bits 8 (UInt8.ofNat (x * 4 + y / 16)).toNat = bits 6 x ++ (bits 6 y).take 2 := by
  have : ∀ x : Fin 64, ∀ q : Fin 4, bits 8 (UInt8.ofNat (x.val * 4 + q.val)).toNat = bits 6 x.val ++ bits 2 q.val := by
    decide +kernel
  rw [(take_bits y hy).1]
  exact this ⟨x, hx⟩ ⟨y / 16, by omega⟩

theorem second_bits (y z : Nat) (hy : y < 64) (hz : z < 64) :
    bits 8 (UInt8.ofNat (y % 16 * 16 + z / 4)).toNat = (bits 6 y).drop 2 ++ (bits 6 z).take 4 := by
  have : ∀ y z : Fin 16, bits 8 (UInt8.ofNat (y.val * 16 + z.val)).toNat = bits 4 y.val ++ bits 4 z.val := by
    decide +kernel
  rw [(take_bits y hy).2.2.1, (take_bits z hz).2.1]
  exact this ⟨y % 16, by omega⟩ ⟨z / 4, by omega⟩

theorem third_bits (z w : Nat) (hz : z < 64) (hw : w < 64) :
    bits 8 (UInt8.ofNat (z % 4 * 64 + w)).toNat = (bits 6 z).drop 4 ++ bits 6 w := by
  have : ∀ z : Fin 4, ∀ w : Fin 64, bits 8 (UInt8.ofNat (z.val * 64 + w.val)).toNat = bits 2 z.val ++ bits 6 w.val := by
    decide +kernel
  rw [(take_bits z hz).2.2.2]
  exact this ⟨z % 4, by omega⟩ ⟨w, hw⟩

theorem bits_length (k n : Nat) : (bits k n).length = k := by simp [bits]

theorem byteBits_cons (a : UInt8) (b : Bytes) : byteBits (a :: b) = bits 8 a.toNat ++ byteBits b := rfl

theorem bits8_inj {a b : UInt8} (h : bits 8 a.toNat = bits 8 b.toNat) : a = b := by
  have : ∀ k : Fin 256, ((bits 8 k.val).foldl (fun n x => 2 * n + x.toNat) 0) = k.val := by decide +kernel
  have h1 := this ⟨a.toNat, a.toNat_lt⟩
  have h2 := this ⟨b.toNat, b.toNat_lt⟩
  dsimp only at h1 h2
  rw [h, h2] at h1
  exact UInt8.toNat_inj.1 h1.symm

theorem byteBits_inj {a b : Bytes} {r s : List Bool} (h : byteBits a ++ r = byteBits b ++ s) (hl : r.length = s.length) : a = b := by
  induction a generalizing b with
  | nil =>
    cases b with
    | nil => rfl
    | cons y b =>
      have := congrArg List.length h
      simp only [byteBits_cons, List.length_append, bits_length] at this
      simp [byteBits] at this
      omega
  | cons x a ih =>
    cases b with
    | nil =>
      have := congrArg List.length h
      simp only [byteBits_cons, List.length_append, bits_length] at this
      simp [byteBits] at this
      omega
    | cons y b =>
      rw [byteBits_cons, byteBits_cons, List.append_assoc, List.append_assoc] at h
      obtain ⟨h1, h2⟩ := List.append_inj h (by rw [bits_length, bits_length])
      rw [bits8_inj h1, ih h2]

/-- What is decoded is spelled. -/
theorem spelled : (s : Str) → (b : Bytes) → decodeQ s = some b → ∃ rest, Spells s b rest
  | [], b, h => by
    cases h
    exact ⟨[], [], 0, [], .nil, rfl, by omega, ⟨0, rfl⟩, rfl, rfl⟩
  | [_], _, h => by cases h
  | [_, _], _, h => by cases h
  | [_, _, _], _, h => by cases h
  | a :: b' :: c :: d :: r, b, h => by
    unfold decodeQ at h
    simp only [Option.bind_eq_some_iff] at h
    obtain ⟨x, hx, y, hy, h⟩ := h
    have ax := dec6_alphabet hx
    have ay := dec6_alphabet hy
    have lx := alphabet_lt ax
    have ly := alphabet_lt ay
    split at h
    · rename_i hc
      split at h
      · rename_i hd
        injection h with h
        obtain ⟨hd, rfl⟩ := hd
        subst hc hd h
        refine ⟨(bits 6 y).drop 2, [x, y], 2, [a, b'], .cons ax (.cons ay .nil), rfl, by omega, ⟨1, rfl⟩, ?_, ?_⟩
        · simp only [List.flatMap_cons, List.flatMap_nil, List.append_nil, byteBits, first_bits x y lx ly]
          rw [List.append_assoc, List.take_append_drop]
        · rw [List.length_drop, bits_length]
      · cases h
    · rename_i hc
      simp only [Option.bind_eq_some_iff] at h
      obtain ⟨z, hz, h⟩ := h
      have az := dec6_alphabet hz
      have lz := alphabet_lt az
      split at h
      · rename_i hd
        split at h
        · rename_i hr
          injection h with h
          subst hd hr h
          refine ⟨(bits 6 z).drop 4, [x, y, z], 1, [a, b', c], .cons ax (.cons ay (.cons az .nil)), rfl, by omega, ⟨1, rfl⟩, ?_, ?_⟩
          · simp only [List.flatMap_cons, List.flatMap_nil, List.append_nil, byteBits, first_bits x y lx ly, second_bits y z ly lz,
              List.append_assoc, List.take_append_drop]
            rw [← List.append_assoc ((bits 6 y).take 2), List.take_append_drop]
          · rw [List.length_drop, bits_length]
        · cases h
      · simp only [Option.bind_eq_some_iff, Option.map_eq_some_iff] at h
        obtain ⟨w, hw, rest, hr, h⟩ := h
        subst h
        have aw := dec6_alphabet hw
        have lw := alphabet_lt aw
        obtain ⟨e, six, k, chars, h1, rfl, h3, ⟨q, h4⟩, h5, h6⟩ := spelled r rest hr
        refine ⟨e, x :: y :: z :: w :: six, k, a :: b' :: c :: d :: chars, .cons ax (.cons ay (.cons az (.cons aw h1))), rfl, h3,
          ⟨q + 1, by simp only [List.length_cons] at h4 ⊢; omega⟩, ?_, h6⟩
        simp only [List.flatMap_cons, h5, byteBits_cons, first_bits x y lx ly, second_bits y z ly lz, third_bits z w lz lw,
          List.append_assoc]
        rw [← List.append_assoc ((bits 6 y).take 2), List.take_append_drop, ← List.append_assoc ((bits 6 z).take 4), List.take_append_drop]

/-- Everything with the right characters is decoded. -/
theorem decodes : (six : List Nat) → (k : Nat) → (chars : Str) → Each (fun n c => base64Alphabet[n]? = some c) six chars → k ≤ 2 →
    4 ∣ (chars ++ List.replicate k '=').length → ∃ b, decodeQ (chars ++ List.replicate k '=') = some b
  | _, k, _, .nil, hk, h => by
    have : k = 0 := by
      simp at h
      omega
    subst this
    exact ⟨[], rfl⟩
  | _, k, _, .cons _ .nil, hk, h => by
    simp at h
    omega
  | _, k, _, .cons h1 (.cons h2 .nil), hk, h => by
    simp at h
    have : k = 2 := by omega
    subst this
    obtain ⟨d1, -⟩ := alphabet_dec6 h1
    obtain ⟨d2, -⟩ := alphabet_dec6 h2
    simp [decodeQ, List.replicate, d1, d2]
  | _, k, _, .cons h1 (.cons h2 (.cons h3 .nil)), hk, h => by
    simp at h
    have : k = 1 := by omega
    subst this
    obtain ⟨d1, -⟩ := alphabet_dec6 h1
    obtain ⟨d2, -⟩ := alphabet_dec6 h2
    obtain ⟨d3, e3⟩ := alphabet_dec6 h3
    simp [decodeQ, List.replicate, d1, d2, d3, e3]
  | _, k, _, .cons h1 (.cons h2 (.cons h3 (.cons (l := six) (m := chars) h4 hr))), hk, h => by
    obtain ⟨d1, -⟩ := alphabet_dec6 h1
    obtain ⟨d2, -⟩ := alphabet_dec6 h2
    obtain ⟨d3, e3⟩ := alphabet_dec6 h3
    obtain ⟨d4, e4⟩ := alphabet_dec6 h4
    obtain ⟨b, hb⟩ := decodes six k chars hr hk (by simp only [List.cons_append, List.length_cons] at h; omega)
    simp [decodeQ, d1, d2, d3, e3, d4, e4, hb]

theorem each_unique {six six' : List Nat} {chars chars' : Str} {k k' : Nat} (h : Each (fun n c => base64Alphabet[n]? = some c) six chars)
    (h' : Each (fun n c => base64Alphabet[n]? = some c) six' chars')
    (e : chars ++ List.replicate k '=' = chars' ++ List.replicate k' '=') : six = six' ∧ k = k' := by
  induction h generalizing six' chars' with
  | nil =>
    cases h' with
    | nil =>
      have := congrArg List.length e
      simpa using this
    | cons h1 h2 =>
      exfalso
      cases k with
      | zero => cases e
      | succ k =>
        injection e with e1 e2
        exact (alphabet_dec6 h1).2 e1.symm
  | cons h1 h2 ih =>
    cases h' with
    | nil =>
      exfalso
      cases k' with
      | zero => cases e
      | succ k =>
        injection e with e1 e2
        exact (alphabet_dec6 h1).2 e1
    | cons h1' h2' =>
      injection e with e1 e2
      obtain ⟨rfl, rfl⟩ := ih h2' e2
      subst e1
      have := (alphabet_dec6 h1).1.symm.trans (alphabet_dec6 h1').1
      injection this with this
      subst this
      exact ⟨rfl, rfl⟩

theorem decodeQ_iff (s : Str) (b : Bytes) : decodeQ s = some b ↔ ∃ rest, Spells s b rest := by
  constructor
  · exact spelled s b
  · rintro ⟨rest, six, k, chars, h1, rfl, h3, h4, h5, h6⟩
    obtain ⟨b', hb'⟩ := decodes six k chars h1 h3 h4
    obtain ⟨rest', six', k', chars', g1, g2, g3, -, g5, g6⟩ := spelled _ b' hb'
    obtain ⟨rfl, rfl⟩ := each_unique h1 g1 g2
    rw [hb', byteBits_inj (h5.symm.trans g5) (h6.trans g6.symm)]

theorem decode_iff (s : Str) (b : Bytes) : decode s = some b ↔ Base64Text s b := decodeQ_iff _ b

theorem replicate_bits (n k : Nat) (h : n < 64) (hz : n % 2 ^ k = 0) : (bits 6 n).drop (6 - k) = List.replicate (min k 6) false := by
  have : ∀ n : Fin 64, ∀ k : Fin 7, n.val % 2 ^ k.val = 0 → (bits 6 n.val).drop (6 - k.val) = List.replicate (min k.val 6) false := by
    decide +kernel
  by_cases hk : k < 7
  · exact this ⟨n, h⟩ ⟨k, hk⟩ hz
  · have h0 : n % 2 ^ 6 = 0 := by
      have : (2 : Nat) ^ 6 ∣ 2 ^ k := Nat.pow_dvd_pow 2 (by omega)
      exact Nat.mod_eq_zero_of_dvd (Nat.dvd_trans this (Nat.dvd_of_mod_eq_zero hz))
    have := this ⟨n, h⟩ ⟨6, by omega⟩ h0
    have e1 : 6 - k = 0 := by omega
    have e2 : min k 6 = 6 := by omega
    rw [e1, e2]
    exact this

/-- The encoding has no bits left except zeros. -/
theorem encode_spells : (b : Bytes) → ∃ k, Spells (encode b) b (List.replicate (2 * k) false)
  | [] => ⟨0, [], 0, [], .nil, rfl, by omega, ⟨0, rfl⟩, rfl, rfl⟩
  | [a] => by
    have ha := a.toNat_lt
    have l1 : a.toNat / 4 < 64 := by omega
    have l2 : a.toNat % 4 * 16 < 64 := by omega
    refine ⟨2, [a.toNat / 4, a.toNat % 4 * 16], 2, _, .cons (enc6_alphabet _ l1) (.cons (enc6_alphabet _ l2) .nil), rfl, by omega,
      ⟨1, rfl⟩, ?_, rfl⟩
    have f := first_bits _ _ l1 l2
    rw [ofNat_eq a (by omega)] at f
    have z := replicate_bits _ 4 l2 (by omega)
    simp only [List.flatMap_cons, List.flatMap_nil, List.append_nil, byteBits, f, List.append_assoc]
    rw [show List.replicate (2 * 2) false = (bits 6 (a.toNat % 4 * 16)).drop 2 from z.symm, List.take_append_drop]
  | [a, b] => by
    have ha := a.toNat_lt
    have hb := b.toNat_lt
    have l1 : a.toNat / 4 < 64 := by omega
    have l2 : a.toNat % 4 * 16 + b.toNat / 16 < 64 := by omega
    have l3 : b.toNat % 16 * 4 < 64 := by omega
    refine ⟨1, [a.toNat / 4, a.toNat % 4 * 16 + b.toNat / 16, b.toNat % 16 * 4], 1, _,
      .cons (enc6_alphabet _ l1) (.cons (enc6_alphabet _ l2) (.cons (enc6_alphabet _ l3) .nil)), rfl, by omega, ⟨1, rfl⟩, ?_, rfl⟩
    have f := first_bits _ _ l1 l2
    have s := second_bits _ _ l2 l3
    rw [ofNat_eq a (by omega)] at f
    rw [ofNat_eq b (by omega)] at s
    have z := replicate_bits _ 2 l3 (by omega)
    simp only [List.flatMap_cons, List.flatMap_nil, List.append_nil, byteBits, f, s, List.append_assoc]
    rw [show List.replicate (2 * 1) false = (bits 6 (b.toNat % 16 * 4)).drop 4 from z.symm, List.take_append_drop,
      ← List.append_assoc ((bits 6 (a.toNat % 4 * 16 + b.toNat / 16)).take 2), List.take_append_drop]
  | a :: b :: c :: r => by
    have ha := a.toNat_lt
    have hb := b.toNat_lt
    have hc := c.toNat_lt
    have l1 : a.toNat / 4 < 64 := by omega
    have l2 : a.toNat % 4 * 16 + b.toNat / 16 < 64 := by omega
    have l3 : b.toNat % 16 * 4 + c.toNat / 64 < 64 := by omega
    have l4 : c.toNat % 64 < 64 := by omega
    obtain ⟨k', six, k, chars, h1, h2, h3, ⟨q, h4⟩, h5, h6⟩ := encode_spells r
    refine ⟨k', _ :: _ :: _ :: _ :: six, k, _, .cons (enc6_alphabet _ l1) (.cons (enc6_alphabet _ l2) (.cons (enc6_alphabet _ l3)
      (.cons (enc6_alphabet _ l4) h1))), ?_, h3, ⟨q + 1, ?_⟩, ?_, h6⟩
    · rw [encode, h2]; rfl
    · rw [encode]
      simp only [List.length_cons, h4]
      omega
    · have f := first_bits _ _ l1 l2
      have s := second_bits _ _ l2 l3
      have t := third_bits _ _ l3 l4
      rw [ofNat_eq a (by omega)] at f
      rw [ofNat_eq b (by omega)] at s
      rw [ofNat_eq c (by omega)] at t
      simp only [List.flatMap_cons, h5, byteBits_cons, f, s, t, List.append_assoc]
      rw [← List.append_assoc ((bits 6 (a.toNat % 4 * 16 + b.toNat / 16)).take 2), List.take_append_drop,
        ← List.append_assoc ((bits 6 (b.toNat % 16 * 4 + c.toNat / 64)).take 4), List.take_append_drop]

theorem bits6_inj {a b : Nat} (ha : a < 64) (hb : b < 64) (h : bits 6 a = bits 6 b) : a = b := by
  have : ∀ k : Fin 64, ((bits 6 k.val).foldl (fun n x => 2 * n + x.toNat) 0) = k.val := by decide +kernel
  have h1 := this ⟨a, ha⟩
  have h2 := this ⟨b, hb⟩
  dsimp only at h1 h2
  rw [h, h2] at h1
  exact h1.symm

theorem six_unique {six six' : List Nat} {chars chars' : Str} (h : Each (fun n c => base64Alphabet[n]? = some c) six chars)
    (h' : Each (fun n c => base64Alphabet[n]? = some c) six' chars') (e : six.flatMap (bits 6) = six'.flatMap (bits 6)) :
    chars = chars' := by
  induction h generalizing six' chars' with
  | nil =>
    cases h' with
    | nil => rfl
    | cons h1 h2 =>
      have := congrArg List.length e
      rw [List.flatMap_cons, List.length_append, bits_length] at this
      simp at this
      omega
  | cons h1 h2 ih =>
    cases h' with
    | nil =>
      have := congrArg List.length e
      rw [List.flatMap_cons, List.length_append, bits_length] at this
      simp at this
    | cons h1' h2' =>
      rw [List.flatMap_cons, List.flatMap_cons] at e
      obtain ⟨e1, e2⟩ := List.append_inj e (by rw [bits_length, bits_length])
      rw [ih h2' e2]
      have := bits6_inj (alphabet_lt h1) (alphabet_lt h1') e1
      subst this
      rw [h1] at h1'
      injection h1' with h1'
      rw [h1']

theorem each_length {six : List Nat} {chars : Str} (h : Each (fun n c => base64Alphabet[n]? = some c) six chars) :
    chars.length = six.length := by
  induction h with
  | nil => rfl
  | cons _ _ ih => simp [ih]

theorem bits_total (six : List Nat) : (six.flatMap (bits 6)).length = 6 * six.length := by
  induction six with
  | nil => rfl
  | cons x six ih => rw [List.flatMap_cons, List.length_append, ih, bits_length, List.length_cons]; omega

theorem byteBits_length (b : Bytes) : (byteBits b).length = 8 * b.length := by
  induction b with
  | nil => rfl
  | cons x b ih => rw [byteBits_cons, List.length_append, ih, bits_length, List.length_cons]; omega

/-- With zeros at the end, only one text spells the bytes. -/
theorem spells_unique {s s' : Str} {b : Bytes} {j j' : Nat} (h : Spells s b (List.replicate j false))
    (h' : Spells s' b (List.replicate j' false)) : s = s' := by
  obtain ⟨six, k, chars, h1, rfl, h3, ⟨q, h4⟩, h5, h6⟩ := h
  obtain ⟨six', k', chars', h1', rfl, h3', ⟨q', h4'⟩, h5', h6'⟩ := h'
  have l := congrArg List.length h5
  have l' := congrArg List.length h5'
  rw [bits_total, List.length_append, byteBits_length, List.length_replicate] at l l'
  rw [List.length_replicate] at h6 h6'
  rw [List.length_append, List.length_replicate, each_length h1] at h4
  rw [List.length_append, List.length_replicate, each_length h1'] at h4'
  have hk : k = k' := by omega
  subst hk
  have hj : j = j' := by omega
  subst hj
  rw [six_unique h1 h1' (h5.trans h5'.symm)]

end Base64
end Osv
