import Verif.Go.RequestURI
import Verif.Spec.DbUrl
import Verif.Lemmas.Url
/-! # Parsing and writing the URLs of databases -/
namespace Osv.Url
open Osv Str Spec

/-! ### Bytes -/

theorem char_valid (c : Char) : c.toNat < 0xD800 ∨ (0xDFFF < c.toNat ∧ c.toNat < 0x110000) := by
  have := c.valid
  unfold UInt32.isValidChar Nat.isValidChar at this
  exact this

theorem ofNat_of (c : Char) (n : Nat) (h : n = c.toNat) : Char.ofNat n = c := by
  rw [h, Char.ofNat_toNat]

theorem toNat_ofNat8 (n : Nat) (h : n < 256) : (UInt8.ofNat n).toNat = n := by
  simp [Nat.mod_eq_of_lt h]

theorem encode_cases (c : Char) :
    (c.toNat ≤ 0x7f ∧ String.utf8EncodeChar c = [UInt8.ofNat c.toNat]) ∨
    (0x7f < c.toNat ∧ c.toNat ≤ 0x7ff ∧
      String.utf8EncodeChar c = [UInt8.ofNat (c.toNat / 64 % 32 + 0xc0), UInt8.ofNat (c.toNat % 64 + 0x80)]) ∨
    (0x7ff < c.toNat ∧ c.toNat ≤ 0xffff ∧
      String.utf8EncodeChar c = [UInt8.ofNat (c.toNat / 4096 % 16 + 0xe0), UInt8.ofNat (c.toNat / 64 % 64 + 0x80),
        UInt8.ofNat (c.toNat % 64 + 0x80)]) ∨
    (0xffff < c.toNat ∧ c.toNat < 0x110000 ∧
      String.utf8EncodeChar c = [UInt8.ofNat (c.toNat / 262144 % 8 + 0xf0), UInt8.ofNat (c.toNat / 4096 % 64 + 0x80),
        UInt8.ofNat (c.toNat / 64 % 64 + 0x80), UInt8.ofNat (c.toNat % 64 + 0x80)]) := by
  have hv := char_valid c
  have e : c.val.toNat = c.toNat := rfl
  unfold String.utf8EncodeChar
  simp only [e]
  by_cases h1 : c.toNat ≤ 0x7f
  · exact Or.inl ⟨h1, by rw [if_pos h1]⟩
  · by_cases h2 : c.toNat ≤ 0x7ff
    · exact Or.inr (Or.inl ⟨by omega, h2, by rw [if_neg h1, if_pos h2]⟩)
    · by_cases h3 : c.toNat ≤ 0xffff
      · exact Or.inr (Or.inr (Or.inl ⟨by omega, h3, by rw [if_neg h1, if_neg h2, if_pos h3]⟩))
      · exact Or.inr (Or.inr (Or.inr ⟨by omega, by omega, by rw [if_neg h1, if_neg h2, if_neg h3]⟩))

/-- The first byte tells the number of bytes. -/
theorem encode_first {c d : Char} {a : UInt8} {s t : List UInt8} (h : String.utf8EncodeChar c = a :: s)
    (h' : String.utf8EncodeChar d = a :: t) : s.length = t.length := by
  have ha : ∀ x y : Nat, x < 256 → y < 256 → UInt8.ofNat x = a → UInt8.ofNat y = a → x = y := by
    intro x y hx hy e1 e2
    rw [← toNat_ofNat8 x hx, ← toNat_ofNat8 y hy, e1, e2]
  rcases encode_cases c with ⟨c1, e1⟩ | ⟨c1, c2, e1⟩ | ⟨c1, c2, e1⟩ | ⟨c1, c2, e1⟩ <;>
  rcases encode_cases d with ⟨d1, e2⟩ | ⟨d1, d2, e2⟩ | ⟨d1, d2, e2⟩ | ⟨d1, d2, e2⟩ <;>
  rw [h] at e1 <;> rw [h'] at e2 <;> injection e1 with x1 y1 <;> injection e2 with x2 y2 <;> rw [y1, y2] <;>
  first | rfl | (exfalso; have := ha _ _ (by omega) (by omega) x1.symm x2.symm; omega)

theorem textOf_encode (c : Char) (s : List UInt8) : textOf (String.utf8EncodeChar c ++ s) = c :: textOf s := by
  have hf : ∀ {d : Char} {a : UInt8} {x y : List UInt8}, String.utf8EncodeChar c = a :: x → x.length ≠ y.length →
      String.utf8EncodeChar d ≠ a :: y := fun h1 h2 h3 => h2 (encode_first h1 h3)
  rcases encode_cases c with ⟨h1, e⟩ | ⟨h1, h2, e⟩ | ⟨h1, h2, e⟩ | ⟨h1, h2, e⟩
  · have e1 : Char.ofNat (UInt8.ofNat c.toNat).toNat = c := by
      rw [toNat_ofNat8 _ (by omega), Char.ofNat_toNat]
    rw [e, List.singleton_append]
    generalize UInt8.ofNat c.toNat = a at e e1
    match s with
    | [] => simp only [textOf, e1]
    | [x] =>
      rw [textOf, if_neg (hf e (by simp)), e1]
      simp only [textOf]
    | [x, y] => rw [textOf, if_neg (hf e (by simp)), if_neg (hf e (by simp)), e1]
    | x :: y :: z :: s => rw [textOf, if_neg (hf e (by simp)), if_neg (hf e (by simp)), if_neg (hf e (by simp)), e1]
  · have e1 : Char.ofNat ((UInt8.ofNat (c.toNat / 64 % 32 + 0xc0)).toNat % 32 * 64 + (UInt8.ofNat (c.toNat % 64 + 0x80)).toNat % 64) = c := by
      rw [toNat_ofNat8 _ (by omega), toNat_ofNat8 _ (by omega)]
      exact ofNat_of c _ (by omega)
    rw [e]
    generalize UInt8.ofNat (c.toNat / 64 % 32 + 0xc0) = a at e e1
    generalize UInt8.ofNat (c.toNat % 64 + 0x80) = b at e e1
    match s with
    | [] => simp only [List.append_nil]; rw [textOf, e1, if_pos e]; simp only [textOf]
    | [x] =>
      show textOf [a, b, x] = _
      rw [textOf, if_neg (hf e (by simp)), e1, if_pos e]
      have : textOf [x] = [Char.ofNat x.toNat] := by simp only [textOf]
      rw [this]
    | x :: y :: s =>
      show textOf (a :: b :: x :: y :: s) = _
      rw [textOf, if_neg (hf e (by simp)), if_neg (hf e (by simp)), e1, if_pos e]
  · have e1 : Char.ofNat ((UInt8.ofNat (c.toNat / 4096 % 16 + 0xe0)).toNat % 16 * 4096 + (UInt8.ofNat (c.toNat / 64 % 64 + 0x80)).toNat % 64 * 64 +
        (UInt8.ofNat (c.toNat % 64 + 0x80)).toNat % 64) = c := by
      rw [toNat_ofNat8 _ (by omega), toNat_ofNat8 _ (by omega), toNat_ofNat8 _ (by omega)]
      exact ofNat_of c _ (by omega)
    rw [e]
    generalize UInt8.ofNat (c.toNat / 4096 % 16 + 0xe0) = a at e e1
    generalize UInt8.ofNat (c.toNat / 64 % 64 + 0x80) = b at e e1
    generalize UInt8.ofNat (c.toNat % 64 + 0x80) = d at e e1
    match s with
    | [] => simp only [List.append_nil]; rw [textOf, e1, if_pos e]; simp only [textOf]
    | y :: s =>
      show textOf (a :: b :: d :: y :: s) = _
      rw [textOf, if_neg (hf e (by simp)), e1, if_pos e]
  · have e1 : Char.ofNat ((UInt8.ofNat (c.toNat / 262144 % 8 + 0xf0)).toNat % 8 * 262144 + (UInt8.ofNat (c.toNat / 4096 % 64 + 0x80)).toNat % 64 * 4096 +
        (UInt8.ofNat (c.toNat / 64 % 64 + 0x80)).toNat % 64 * 64 + (UInt8.ofNat (c.toNat % 64 + 0x80)).toNat % 64) = c := by
      rw [toNat_ofNat8 _ (by omega), toNat_ofNat8 _ (by omega), toNat_ofNat8 _ (by omega), toNat_ofNat8 _ (by omega)]
      exact ofNat_of c _ (by omega)
    rw [e]
    generalize UInt8.ofNat (c.toNat / 262144 % 8 + 0xf0) = a at e e1
    generalize UInt8.ofNat (c.toNat / 4096 % 64 + 0x80) = b at e e1
    generalize UInt8.ofNat (c.toNat / 64 % 64 + 0x80) = d at e e1
    generalize UInt8.ofNat (c.toNat % 64 + 0x80) = f at e e1
    show textOf (a :: b :: d :: f :: s) = _
    rw [textOf, e1, if_pos e]

theorem textOf_bytesOf (s : Str) : textOf (bytesOf s) = s := by
  induction s with
  | nil => simp [bytesOf, textOf]
  | cons c s ih =>
    show textOf (String.utf8EncodeChar c ++ bytesOf s) = _
    rw [textOf_encode, ih]

/-! ### Escapes -/

theorem unhex_hex : ∀ n : Fin 16, ∀ c, (g!"0123456789abcdef"[n.val]? = some c ∨ g!"0123456789ABCDEF"[n.val]? = some c) → unhex c = some n.val := by
  have h : ∀ n : Fin 16, (∀ c ∈ g!"0123456789abcdef"[n.val]?, unhex c = some n.val) ∧ (∀ c ∈ g!"0123456789ABCDEF"[n.val]?, unhex c = some n.val) := by
    decide +kernel
  rintro n c (hc | hc)
  · exact (h n).1 c hc
  · exact (h n).2 c hc

theorem unhex_digit {n : Nat} {c : Char} (h : HexDigit c n) : unhex c = some n := by
  by_cases hn : n < 16
  · exact unhex_hex ⟨n, hn⟩ c h
  · exfalso
    rcases h with h | h <;> · have := (List.getElem?_eq_some_iff.1 h).1; simp at this; omega

theorem hex_plain {n : Nat} {c : Char} (h : HexDigit c n) : UrlChar c ∧ c ≠ '/' := by
  have h' : ∀ n : Fin 16, (∀ c ∈ g!"0123456789abcdef"[n.val]?, (32 ≤ c.toNat ∧ c.toNat ≠ 127 ∧ c ≠ '%' ∧ c ≠ '?') ∧ c ≠ '/') ∧
      (∀ c ∈ g!"0123456789ABCDEF"[n.val]?, (32 ≤ c.toNat ∧ c.toNat ≠ 127 ∧ c ≠ '%' ∧ c ≠ '?') ∧ c ≠ '/') := by decide +kernel
  have hn : n < 16 := by
    rcases h with h | h <;> · have := (List.getElem?_eq_some_iff.1 h).1; simpa using this
  rcases h with h | h
  · exact (h' ⟨n, hn⟩).1 c h
  · exact (h' ⟨n, hn⟩).2 c h

theorem unescape_coded {bs : List UInt8} {t : Str} (h : Coded bs t) (u : Str) :
    unescapeBytes .path (t ++ u) = (unescapeBytes .path u).map (bs ++ ·) := by
  induction h with
  | nil => simp
  | @byte b bs x y t hx hy _ ih =>
    show unescapeBytes .path ('%' :: x :: y :: (t ++ u)) = _
    rw [unescapeBytes, unhex_digit hx, unhex_digit hy]
    dsimp only
    rw [if_pos (by simp [escapeOK]), ih]
    have : UInt8.ofNat (16 * (b.toNat / 16) + b.toNat % 16) = b := by
      rw [Nat.div_add_mod, UInt8.ofNat_toNat]
    rw [this]
    cases unescapeBytes .path u <;> simp

theorem unescape_char {c : Char} (h : c ≠ '%') (u : Str) :
    unescapeBytes .path (c :: u) = (unescapeBytes .path u).map (String.utf8EncodeChar c ++ ·) := by
  rw [unescapeBytes]
  · rw [if_neg h, if_neg (by simp)]
  · rintro _ _ _ rfl _; exact h rfl

theorem unescape_spelled {p t : Str} (h : Spelled p t) : unescapeBytes .path t = some (bytesOf p) := by
  induction h with
  | nil => rfl
  | @plain c p t hc _ ih =>
    rw [unescape_char hc.2.2.1, ih]
    rfl
  | @coded c p t u hc _ ih =>
    rw [unescape_coded hc, ih]
    rfl

/-- A text is read as it is written. -/
theorem unescapePart_spelled {p t : Str} (h : Spelled p t) : unescapePart .path t = some p := by
  unfold unescapePart
  rw [unescape_spelled h, Option.map_some, textOf_bytesOf]

theorem spelled_append {p q t u : Str} (h : Spelled p t) (h' : Spelled q u) : Spelled (p ++ q) (t ++ u) := by
  induction h with
  | nil => exact h'
  | plain hc _ ih => exact .plain hc ih
  | coded hc _ ih => rw [List.append_assoc]; exact .coded hc ih

theorem coded_chars {bs : List UInt8} {t : Str} (h : Coded bs t) : ∀ c ∈ t, 32 ≤ c.toNat ∧ c.toNat ≠ 127 ∧ c ≠ '?' ∧ c ≠ '/' := by
  induction h with
  | nil => simp
  | byte hx hy _ ih =>
    intro c hc
    simp only [List.mem_cons] at hc
    rcases hc with rfl | rfl | rfl | hc
    · decide
    · exact ⟨(hex_plain hx).1.1, (hex_plain hx).1.2.1, (hex_plain hx).1.2.2.2, (hex_plain hx).2⟩
    · exact ⟨(hex_plain hy).1.1, (hex_plain hy).1.2.1, (hex_plain hy).1.2.2.2, (hex_plain hy).2⟩
    · exact ih c hc

theorem spelled_chars {p t : Str} (h : Spelled p t) : ∀ c ∈ t, 32 ≤ c.toNat ∧ c.toNat ≠ 127 ∧ c ≠ '?' := by
  induction h with
  | nil => simp
  | plain hc _ ih =>
    intro c hm
    rcases List.mem_cons.1 hm with rfl | hm
    · exact ⟨hc.1, hc.2.1, hc.2.2.2⟩
    · exact ih c hm
  | coded hc _ ih =>
    intro c hm
    rcases List.mem_append.1 hm with hm | hm
    · exact ⟨(coded_chars hc c hm).1, (coded_chars hc c hm).2.1, (coded_chars hc c hm).2.2.1⟩
    · exact ih c hm

theorem hasCTL_false {s : Str} (h : ∀ c ∈ s, 32 ≤ c.toNat ∧ c.toNat ≠ 127) : hasCTL s = false := by
  unfold hasCTL
  rw [List.any_eq_false]
  intro c hc
  have := h c hc
  simp
  omega

theorem cutQuery_none {s : Str} (h : '?' ∉ s) : cutQuery s = (s, []) := by
  unfold cutQuery
  rw [if_neg, cut_char_none _ _ h]
  intro hc
  simp only [Bool.and_eq_true] at hc
  obtain ⟨t, ht⟩ := (hasSuffix_iff _ _).1 hc.1
  exact h (by rw [ht]; simp)

theorem force_false {s : Str} (h : '?' ∉ s) : (hasSuffix s g!"?" && (s.filter (· == '?')).length == 1) = false := by
  have : hasSuffix s g!"?" = false := by
    rw [← Bool.not_eq_true, hasSuffix_iff]
    rintro ⟨t, rfl⟩
    exact h (by simp)
  rw [this]
  rfl

/-! ### Local directories -/

theorem getScheme_file (raw rest : Str) : getScheme raw [] (g!"file:" ++ rest) = some (g!"file", rest) := by
  simp [getScheme, isLetter, isDigit]

theorem file_start {t : Str} (h : ∀ c ∈ t, 32 ≤ c.toNat ∧ c.toNat ≠ 127 ∧ c ≠ '?') :
    parseRequest (g!"file:" ++ t) =
      (let u : Request := { scheme := g!"file" }
      if !hasPrefix t g!"/" then some { u with opaquePart := t }
      else if hasPrefix t g!"//" then
        let authority := (cut (t.drop 2) g!"/").1
        match parseAuthorityFull authority with
        | none => none
        | some (user, host) => setPath { u with user := user, host := host } ((t.drop 2).drop authority.length)
      else setPath { u with omitHost := true } t) := by
  have hq : '?' ∉ t := fun hm => (h _ hm).2.2 rfl
  unfold parseRequest
  rw [getScheme_file, if_neg, if_neg (by simp), if_neg (by simp)]
  · dsimp only
    rw [cutQuery_none hq, force_false hq]
    have e : Str.toLower g!"file" = g!"file" := by decide
    simp only [e, ne_eq, List.cons_ne_nil, not_false_eq_true, if_true, decide_true, Bool.true_and]
    rfl
  · have : hasCTL (g!"file:" ++ t) = false := by
      rw [hasCTL_append, hasCTL_false fun c hc => ⟨(h c hc).1, (h c hc).2.1⟩]
      decide
    rw [this]
    simp

theorem path_of_set {u v : Request} {t p : Str} (h : Spelled p t) (hv : setPath u t = some v) : v.path = p := by
  unfold setPath at hv
  rw [unescapePart_spelled h] at hv
  cases hv
  rfl

theorem set_spelled {p t : Str} (u : Request) (h : Spelled p t) : ∃ r, setPath u t = some { u with path := p, rawPath := r } ∧ (r = [] ∨ r = t) := by
  unfold setPath
  rw [unescapePart_spelled h]
  refine ⟨_, rfl, ?_⟩
  split
  · exact Or.inl rfl
  · exact Or.inr rfl

theorem slash_spelled {p t : Str} (h : Spelled p t) : Spelled ('/' :: p) ('/' :: t) := .plain (by unfold UrlChar; decide) h

/-- A literal slash at the start stands for a slash at the start. -/
theorem spelled_relative {p t : Str} (h : Spelled p t) (hp : ∀ q, p ≠ '/' :: q) : ∀ u, t ≠ '/' :: u := by
  cases h with
  | nil => simp
  | plain hc _ => intro u hu; cases hu; exact hp _ rfl
  | @coded c p t u hc _ =>
    intro w hw
    generalize hb : String.utf8EncodeChar c = bs at hc
    cases hc with
    | nil => exact String.utf8EncodeChar_ne_nil hb
    | byte => cases hw

theorem path_one {p t : Str} (h : Spelled p t) (hp : ∀ q, p ≠ '/' :: q) : requestPath (g!"file:/" ++ t) = some ('/' :: p) := by
  have hs := slash_spelled h
  unfold requestPath
  rw [show g!"file:/" ++ t = g!"file:" ++ '/' :: t by simp, file_start (spelled_chars hs)]
  dsimp only
  have h1 : hasPrefix ('/' :: t) g!"/" = true := (hasPrefix_iff _ _).2 ⟨t, rfl⟩
  have h2 : hasPrefix ('/' :: t) g!"//" = false := by
    rw [← Bool.not_eq_true, hasPrefix_iff]
    rintro ⟨u, hu⟩
    simp at hu
    exact spelled_relative h hp u hu
  rw [if_neg (by simp [h1]), if_neg (by simp [h2])]
  obtain ⟨r, hr, _⟩ := set_spelled { scheme := g!"file", omitHost := true } hs
  rw [hr]
  rfl

theorem path_three {p t : Str} (h : Spelled p t) : requestPath (g!"file:///" ++ t) = some ('/' :: p) := by
  have hs := slash_spelled h
  unfold requestPath
  rw [show g!"file:///" ++ t = g!"file:" ++ '/' :: '/' :: '/' :: t by simp, file_start (spelled_chars (slash_spelled (slash_spelled hs)))]
  dsimp only
  have h1 : hasPrefix ('/' :: '/' :: '/' :: t) g!"/" = true := (hasPrefix_iff _ _).2 ⟨_, rfl⟩
  have h2 : hasPrefix ('/' :: '/' :: '/' :: t) g!"//" = true := (hasPrefix_iff _ _).2 ⟨'/' :: t, rfl⟩
  rw [if_neg (by simp [h1]), if_pos h2]
  have e : (cut (('/' :: '/' :: '/' :: t).drop 2) g!"/").1 = [] := by
    show (cut ([] ++ '/' :: t) ['/']).1 = []
    rw [cut_char '/' [] t (by simp)]
  rw [e]
  have e2 : parseAuthorityFull [] = some (none, []) := by decide
  rw [e2]
  dsimp only
  obtain ⟨r, hr, _⟩ := set_spelled { scheme := g!"file" } hs
  show Option.map _ (setPath { scheme := g!"file" } ('/' :: t)) = _
  rw [hr]
  rfl

theorem _root_.Osv.spelled_self (s : Str) (h : ∀ c ∈ s, 32 ≤ c.toNat ∧ c.toNat ≠ 127 ∧ c ≠ '%' ∧ c ≠ '?') : Spelled s s := by
  induction s with
  | nil => exact .nil
  | cons c s ih => exact .plain (h c (by simp)) (ih fun d hd => h d (by simp [hd]))

end Osv.Url
