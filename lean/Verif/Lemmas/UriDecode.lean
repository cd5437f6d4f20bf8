import Verif.Spec.RequestUri
import Verif.Lemmas.ApiUrl
/-! # Decoding and writing the parts of URIs -/
namespace Osv.Url
open Osv Str Spec

/-- The kinds of the model. -/
def partOf : UriKind → Part
  | .path => .path
  | .user => .user
  | .host => .host
  | .zone => .zone

theorem hexDigit_lt {c : Char} {n : Nat} (h : HexDigit c n) : n < 16 := by
  rcases h with h | h <;> · have := (List.getElem?_eq_some_iff.1 h).1; simpa using this

theorem hex_of_unhex {c : Char} {n : Nat} (h : unhex c = some n) : HexDigit c n := by
  have key : ∀ i : Fin 128, ∀ n, unhex (Char.ofNat i.val) = some n →
      g!"0123456789abcdef"[n]? = some (Char.ofNat i.val) ∨ g!"0123456789ABCDEF"[n]? = some (Char.ofNat i.val) := by
    have : ∀ i : Fin 128, ∀ n ∈ unhex (Char.ofNat i.val),
      g!"0123456789abcdef"[n]? = some (Char.ofNat i.val) ∨ g!"0123456789ABCDEF"[n]? = some (Char.ofNat i.val) := by decide +kernel
    exact this
  have hc : c.toNat < 128 := by
    unfold unhex at h
    dsimp only at h
    split at h
    · rename_i h1; simp at h1; omega
    · split at h
      · rename_i h1; simp at h1; omega
      · split at h
        · rename_i h1; simp at h1; omega
        · cases h
  have := key ⟨c.toNat, hc⟩ n
  simp only [Char.ofNat_toNat] at this
  exact this h

theorem escape_host_zone (c : Char) : shouldEscape .zone c = shouldEscape .host c := by
  unfold shouldEscape
  simp

theorem host_char_iff (c : Char) : (c.toNat < 128 ∧ shouldEscape .host c = false) ↔ c ∈ uriHostChars := by
  constructor
  · rintro ⟨h1, h2⟩
    have key : ∀ i : Fin 128, shouldEscape .host (Char.ofNat i.val) = false → Char.ofNat i.val ∈ uriHostChars := by decide +kernel
    have := key ⟨c.toNat, h1⟩
    simp only [Char.ofNat_toNat] at this
    exact this h2
  · have key : ∀ c ∈ uriHostChars, c.toNat < 128 ∧ shouldEscape .host c = false := by decide +kernel
    exact key c

theorem not_escape_ascii {c : Char} (h : shouldEscape .host c = false) : c.toNat < 128 := by
  apply Decidable.byContradiction
  intro hn
  have hl : isLetter c = false := by unfold isLetter; simp; omega
  have hd : isDigit c = false := by
    rw [← Bool.not_eq_true]
    intro h
    unfold isDigit at h
    rw [Bool.and_eq_true, decide_eq_true_eq, decide_eq_true_eq] at h
    have : c.toNat ≤ 57 := UInt32.le_iff_toNat_le.1 h.2
    omega
  have hm : ∀ l : Str, (∀ d ∈ l, d.toNat < 128) → List.contains l c = false := by
    intro l hx
    rw [← Bool.not_eq_true, List.contains_iff_mem]
    exact fun hc => hn (hx c hc)
  unfold shouldEscape at h
  rw [hl, hd, hm g!"!$&'()*+,;=:[]<>\"" (by decide), hm g!"-_.~" (by decide), hm g!"$&+,/:;=?@" (by decide)] at h
  simp at h

theorem escapeOK_iff (k : UriKind) {x y : Char} {a b : Nat} (hx : HexDigit x a) (hy : HexDigit y b) :
    escapeOK (partOf k) x y a b = true ↔ UriByte k (16 * a + b) := by
  have ha := hexDigit_lt hx
  have hb := hexDigit_lt hy
  have hp : (x == '2' && y == '5') = true ↔ 16 * a + b = 37 := by
    constructor
    · intro h
      simp only [Bool.and_eq_true, beq_iff_eq] at h
      obtain ⟨rfl, rfl⟩ := h
      have e1 := unhex_digit hx
      have e2 := unhex_digit hy
      have f1 : unhex '2' = some 2 := by decide
      have f2 : unhex '5' = some 5 := by decide
      rw [f1] at e1
      rw [f2] at e2
      cases e1
      cases e2
      rfl
    · intro h
      have h1 : a = 2 := by omega
      have h2 : b = 5 := by omega
      subst h1
      subst h2
      have e1 : x = '2' := by rcases hx with h | h <;> · simp at h; exact h.symm
      have e2 : y = '5' := by rcases hy with h | h <;> · simp at h; exact h.symm
      rw [e1, e2]
      rfl
  cases k with
  | path => simp [partOf, escapeOK, UriByte]
  | user => simp [partOf, escapeOK, UriByte]
  | host =>
    show (decide (8 ≤ a) || (x == '2' && y == '5')) = true ↔ _
    rw [Bool.or_eq_true, hp, decide_eq_true_eq]
    show _ ↔ 128 ≤ _ ∨ _
    constructor
    · rintro (h | h)
      · left; omega
      · exact Or.inr h
    · rintro (h | h)
      · left; omega
      · exact Or.inr h
  | zone =>
    show ((x == '2' && y == '5') || 16 * a + b == 32 || !(shouldEscape .host (Char.ofNat (16 * a + b)))) = true ↔ _
    rw [Bool.or_eq_true, Bool.or_eq_true, hp, beq_iff_eq, Bool.not_eq_true']
    show _ ↔ _ ∨ _ ∨ _
    have hn : (Char.ofNat (16 * a + b)).toNat = 16 * a + b := by
      have : ∀ i : Fin 256, (Char.ofNat i.val).toNat = i.val := by decide +kernel
      exact this ⟨16 * a + b, by omega⟩
    rw [or_assoc]
    constructor
    · rintro (h | h | h)
      · exact Or.inl h
      · exact Or.inr (Or.inl h)
      · exact Or.inr (Or.inr ⟨_, (host_char_iff _).1 ⟨not_escape_ascii h, h⟩, hn⟩)
    · rintro (h | h | ⟨c, hc, e⟩)
      · exact Or.inl h
      · exact Or.inr (Or.inl h)
      · refine Or.inr (Or.inr ?_)
        rw [← e, Char.ofNat_toNat]
        exact ((host_char_iff _).2 hc).2

theorem plain_iff (k : UriKind) (c : Char) :
    UriPlain k c ↔ c ≠ '%' ∧ ((partOf k = .host || partOf k = .zone) && c.toNat < 128 && shouldEscape (partOf k) c) = false := by
  have hper : shouldEscape .host '%' = true := by decide
  cases k with
  | path => simp [partOf, UriPlain]
  | user => simp [partOf, UriPlain]
  | host =>
    show (128 ≤ c.toNat ∨ c ∈ uriHostChars) ↔ _
    rw [← host_char_iff]
    simp only [partOf]
    constructor
    · intro h
      have : c ≠ '%' := by
        rintro rfl
        rcases h with h | h
        · revert h; decide
        · rw [hper] at h; cases h.2
      refine ⟨this, ?_⟩
      rcases h with h | h
      · have : decide (c.toNat < 128) = false := by simp; omega
        simp [this]
      · simp [h.2]
    · rintro ⟨_, h⟩
      by_cases hc : c.toNat < 128
      · right; simpa [hc] using h
      · left; omega
  | zone =>
    show (128 ≤ c.toNat ∨ c ∈ uriHostChars) ↔ _
    rw [← host_char_iff]
    simp only [partOf, escape_host_zone]
    constructor
    · intro h
      have : c ≠ '%' := by
        rintro rfl
        rcases h with h | h
        · revert h; decide
        · rw [hper] at h; cases h.2
      refine ⟨this, ?_⟩
      rcases h with h | h
      · have : decide (c.toNat < 128) = false := by simp; omega
        simp [this]
      · simp [h.2]
    · rintro ⟨_, h⟩
      by_cases hc : c.toNat < 128
      · right; simpa [hc] using h
      · left; omega

theorem unescape_self {k : UriKind} {c : Char} (h : UriPlain k c) (u : Str) :
    unescapeBytes (partOf k) (c :: u) = (unescapeBytes (partOf k) u).map (String.utf8EncodeChar c ++ ·) := by
  obtain ⟨h1, h2⟩ := (plain_iff k c).1 h
  rw [unescapeBytes]
  · rw [if_neg h1, if_neg (by rw [h2]; simp)]
  · rintro _ _ _ rfl _; exact h1 rfl

theorem unescape_code {k : UriKind} {x y : Char} {a b : Nat} (hx : HexDigit x a) (hy : HexDigit y b) (h : UriByte k (16 * a + b)) (u : Str) :
    unescapeBytes (partOf k) ('%' :: x :: y :: u) = (unescapeBytes (partOf k) u).map (UInt8.ofNat (16 * a + b) :: ·) := by
  rw [unescapeBytes, unhex_digit hx, unhex_digit hy]
  dsimp only
  rw [if_pos ((escapeOK_iff k hx hy).2 h)]

theorem ok_of_unescape (k : UriKind) (n : Nat) (t : Str) (hn : t.length ≤ n) (bs : List UInt8) (h : unescapeBytes (partOf k) t = some bs) :
    UriOk k t := by
  induction n generalizing t bs with
  | zero => rw [List.length_eq_zero_iff.1 (Nat.le_zero.1 hn)]; exact .nil
  | succ n ih =>
    match t, hn, h with
    | [], _, _ => exact .nil
    | c :: s, hn, h =>
      simp only [List.length_cons] at hn
      by_cases hc : c = '%'
      · subst hc
        match s, hn, h with
        | [], _, h => simp [unescapeBytes] at h
        | [x], _, h => simp [unescapeBytes] at h
        | a :: b :: s, hn, h =>
          simp only [List.length_cons] at hn
          rw [unescapeBytes] at h
          split at h
          · rename_i x y hx hy
            split at h
            · rename_i hok
              cases hu : unescapeBytes (partOf k) s with
              | none => rw [hu] at h; cases h
              | some w =>
                exact .byte (hex_of_unhex hx) (hex_of_unhex hy) ((escapeOK_iff k (hex_of_unhex hx) (hex_of_unhex hy)).1 hok)
                  (ih s (by omega) w hu)
            · cases h
          · cases h
      · rw [unescapeBytes] at h
        · rw [if_neg hc] at h
          split at h
          · cases h
          · rename_i hok
            cases hu : unescapeBytes (partOf k) s with
            | none => rw [hu] at h; cases h
            | some w => exact .plain ((plain_iff k c).2 ⟨hc, by simpa using hok⟩) (ih s (by omega) w hu)
        · rintro _ _ _ rfl _; exact hc rfl

/-- What may be written is what can be decoded. -/
theorem unescape_ok_iff (k : UriKind) (t : Str) : (∃ bs, unescapeBytes (partOf k) t = some bs) ↔ UriOk k t := by
  constructor
  · rintro ⟨bs, h⟩
    exact ok_of_unescape k _ t (Nat.le_refl _) bs h
  · intro h
    induction h with
    | nil => exact ⟨[], rfl⟩
    | plain hc _ ih =>
      obtain ⟨bs, ih⟩ := ih
      exact ⟨_, by rw [unescape_self hc, ih]; rfl⟩
    | byte hx hy hb _ ih =>
      obtain ⟨bs, ih⟩ := ih
      exact ⟨_, by rw [unescape_code hx hy hb, ih]; rfl⟩

theorem unescapePart_ok (k : UriKind) (t : Str) : (∃ p, unescapePart (partOf k) t = some p) ↔ UriOk k t := by
  rw [← unescape_ok_iff]
  unfold unescapePart
  constructor
  · rintro ⟨p, h⟩
    cases hu : unescapeBytes (partOf k) t with
    | none => rw [hu] at h; cases h
    | some w => exact ⟨w, rfl⟩
  · rintro ⟨bs, h⟩
    exact ⟨textOf bs, by rw [h]; rfl⟩

theorem unescape_codes {k : UriKind} {bs : List UInt8} {t : Str} (h : Coded bs t) (hb : ∀ b ∈ bs, UriByte k b.toNat) (u : Str) :
    unescapeBytes (partOf k) (t ++ u) = (unescapeBytes (partOf k) u).map (bs ++ ·) := by
  induction h with
  | nil => simp
  | @byte b bs x y t hx hy _ ih =>
    have e : 16 * (b.toNat / 16) + b.toNat % 16 = b.toNat := Nat.div_add_mod _ _
    show unescapeBytes (partOf k) ('%' :: x :: y :: (t ++ u)) = _
    rw [unescape_code hx hy (by rw [e]; exact hb b (by simp)), ih fun c hc => hb c (by simp [hc]), e, UInt8.ofNat_toNat]
    cases unescapeBytes (partOf k) u <;> simp

theorem unescape_uri {k : UriKind} {p t : Str} (h : UriSpelled k p t) : unescapeBytes (partOf k) t = some (bytesOf p) := by
  induction h with
  | nil => rfl
  | plain hc _ ih => rw [unescape_self hc, ih]; rfl
  | coded hc hb _ ih => rw [unescape_codes hc hb, ih]; rfl

/-- A text is read as it is written. -/
theorem unescapePart_uri {k : UriKind} {p t : Str} (h : UriSpelled k p t) : unescapePart (partOf k) t = some p := by
  unfold unescapePart
  rw [unescape_uri h, Option.map_some, textOf_bytesOf]

theorem uri_append {k : UriKind} {p q t u : Str} (h : UriSpelled k p t) (h' : UriSpelled k q u) : UriSpelled k (p ++ q) (t ++ u) := by
  induction h with
  | nil => exact h'
  | plain hc _ ih => exact .plain hc ih
  | coded hc hb _ ih => rw [List.append_assoc]; exact .coded hc hb ih

end Osv.Url
