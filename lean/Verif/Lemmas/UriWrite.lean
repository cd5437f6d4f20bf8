import Verif.Lemmas.UriParse
/-! # Writing URIs -/
namespace Osv.Url
open Osv Str Spec

theorem escape_append (k : Part) (a b : Str) : escape k (a ++ b) = escape k a ++ escape k b := by
  unfold escape
  rw [List.flatMap_append]

theorem escape_cons (k : Part) (c : Char) (s : Str) : escape k (c :: s) = escape k [c] ++ escape k s := escape_append k [c] s

/-! ### Characters -/

theorem ascii_bytes {c : Char} (h : c.toNat < 128) : String.utf8EncodeChar c = [UInt8.ofNat c.toNat] := by
  rcases encode_cases c with ⟨_, e⟩ | ⟨h1, _⟩ | ⟨h1, _⟩ | ⟨h1, _⟩
  · exact e
  all_goals omega

theorem high_bytes {c : Char} (h : 128 ≤ c.toNat) : ∀ b ∈ String.utf8EncodeChar c, 128 ≤ b.toNat := by
  have ho : ∀ n, n < 256 → (UInt8.ofNat n).toNat = n := toNat_ofNat8
  rcases encode_cases c with ⟨h1, _⟩ | ⟨_, _, e⟩ | ⟨_, _, e⟩ | ⟨_, _, e⟩
  · omega
  all_goals
    rw [e]
    intro b hb
    simp only [List.mem_cons, List.not_mem_nil, or_false] at hb
    rcases hb with rfl | rfl | rfl | rfl <;> (rw [ho _ (by omega)]; omega)

theorem ascii_byte {c : Char} (h : c.toNat < 128) {P : Nat → Prop} (hb : ∀ b ∈ String.utf8EncodeChar c, P b.toNat) : P c.toNat := by
  rw [ascii_bytes h] at hb
  have := hb (UInt8.ofNat c.toNat) (by simp)
  rwa [toNat_ofNat8 _ (by omega)] at this

/-- Characters of hosts, after decoding. -/
theorem host_values {p t : Str} (h : UriSpelled .host p t) : ∀ c ∈ p, 128 ≤ c.toNat ∨ c ∈ uriHostChars ∨ c = '%' := by
  induction h with
  | nil => simp
  | plain hc _ ih =>
    intro d hd
    rcases List.mem_cons.1 hd with rfl | hd
    · rcases (hc : _ ∨ _) with hc | hc
      · exact Or.inl hc
      · exact Or.inr (Or.inl hc)
    · exact ih d hd
  | @coded c _ _ _ hc hb _ ih =>
    intro d hd
    rcases List.mem_cons.1 hd with rfl | hd
    · by_cases ha : d.toNat < 128
      · rcases (ascii_byte ha hb : 128 ≤ d.toNat ∨ d.toNat = 37) with h | h
        · omega
        · exact Or.inr (Or.inr (by rw [← Char.ofNat_toNat d, h]))
      · exact Or.inl (by omega)
    · exact ih d hd

theorem zone_values {p t : Str} (h : UriSpelled .zone p t) : ∀ c ∈ p, 128 ≤ c.toNat ∨ c ∈ uriHostChars ∨ c = '%' ∨ c = ' ' := by
  induction h with
  | nil => simp
  | plain hc _ ih =>
    intro d hd
    rcases List.mem_cons.1 hd with rfl | hd
    · rcases (hc : _ ∨ _) with hc | hc
      · exact Or.inl hc
      · exact Or.inr (Or.inl hc)
    · exact ih d hd
  | @coded c _ _ _ hc hb _ ih =>
    intro d hd
    rcases List.mem_cons.1 hd with rfl | hd
    · by_cases ha : d.toNat < 128
      · rcases (ascii_byte ha hb : d.toNat = 37 ∨ d.toNat = 32 ∨ ∃ c ∈ uriHostChars, c.toNat = d.toNat) with h | h | ⟨e, he, h⟩
        · exact Or.inr (Or.inr (Or.inl (by rw [← Char.ofNat_toNat d, h])))
        · exact Or.inr (Or.inr (Or.inr (by rw [← Char.ofNat_toNat d, h])))
        · exact Or.inr (Or.inl (by rw [← Char.ofNat_toNat d, ← h, Char.ofNat_toNat]; exact he))
      · exact Or.inl (by omega)
    · exact ih d hd

theorem high_escaped {c : Char} (h : 128 ≤ c.toNat) : shouldEscape .host c = true := by
  rw [← Bool.not_eq_false]
  intro hn
  have := not_escape_ascii hn
  omega

theorem escape_one_host {c : Char} (h : c ∈ uriHostChars) : escape .host [c] = [c] := by
  unfold escape
  rw [List.flatMap_cons, if_neg (by rw [((host_char_iff c).2 h).2]; simp)]
  rfl

theorem escape_high {c : Char} (h : 128 ≤ c.toNat) : ∃ t, escape .host [c] = t ∧ Coded (String.utf8EncodeChar c) t := by
  refine ⟨_, rfl, ?_⟩
  unfold escape
  rw [List.flatMap_cons, if_pos (high_escaped h)]
  simpa using coded_upper (String.utf8EncodeChar c)

theorem host_escape {p : Str} (h : ∀ c ∈ p, 128 ≤ c.toNat ∨ c ∈ uriHostChars ∨ c = '%') : UriSpelled .host p (escape .host p) := by
  induction p with
  | nil => exact .nil
  | cons c p ih =>
    rw [escape_cons]
    have ih := ih fun d hd => h d (by simp [hd])
    rcases h c (by simp) with hc | hc | rfl
    · obtain ⟨t, e, ht⟩ := escape_high hc
      rw [e]
      exact .coded ht (fun b hb => Or.inl (high_bytes hc b hb)) ih
    · rw [escape_one_host hc]
      exact .plain (Or.inr hc) ih
    · exact .coded (t := g!"%25") (.byte (b := 37) (Or.inl rfl) (Or.inl rfl) .nil) (by
        intro b hb
        rw [ascii_bytes (by decide)] at hb
        simp only [List.mem_singleton] at hb
        subst hb
        exact Or.inr (by decide)) ih

theorem zone_escape {p : Str} (h : ∀ c ∈ p, c ∈ uriHostChars ∨ c = '%' ∨ c = ' ') : UriSpelled .zone p (escape .host p) := by
  induction p with
  | nil => exact .nil
  | cons c p ih =>
    rw [escape_cons]
    have ih := ih fun d hd => h d (by simp [hd])
    rcases h c (by simp) with hc | rfl | rfl
    · rw [escape_one_host hc]
      exact .plain (Or.inr hc) ih
    · exact .coded (t := g!"%25") (.byte (b := 37) (Or.inl rfl) (Or.inl rfl) .nil) (by
        intro b hb
        rw [ascii_bytes (by decide)] at hb
        simp only [List.mem_singleton] at hb
        subst hb
        exact Or.inl (by decide)) ih
    · exact .coded (t := g!"%20") (.byte (b := 32) (Or.inl rfl) (Or.inl rfl) .nil) (by
        intro b hb
        rw [ascii_bytes (by decide)] at hb
        simp only [List.mem_singleton] at hb
        subst hb
        exact Or.inr (Or.inl (by decide))) ih

/-! ### Splitting -/

/-- Characters of hosts in ASCII stand for themselves. -/
theorem host_first {c : Char} {p t : Str} (hc : c.toNat < 128) (hp : c ≠ '%') (h : UriSpelled .host (c :: p) t) :
    ∃ u, t = c :: u ∧ UriSpelled .host p u := by
  cases h with
  | plain _ h => exact ⟨_, rfl, h⟩
  | coded h1 h2 _ =>
    exfalso
    rcases (ascii_byte hc h2 : 128 ≤ c.toNat ∨ c.toNat = 37) with h | h
    · omega
    · exact hp (by rw [← Char.ofNat_toNat c, h])

theorem split_value {a b t : Str} {c : Char} (hc : c.toNat < 128) (hp : c ≠ '%') (h : UriSpelled .host (a ++ c :: b) t) :
    ∃ x y, t = x ++ c :: y ∧ UriSpelled .host a x ∧ UriSpelled .host b y := by
  induction a generalizing t with
  | nil =>
    obtain ⟨u, rfl, hu⟩ := host_first hc hp h
    exact ⟨[], u, rfl, .nil, hu⟩
  | cons d a ih =>
    cases h with
    | plain hd h =>
      obtain ⟨x, y, rfl, hx, hy⟩ := ih h
      exact ⟨d :: x, y, rfl, .plain hd hx, hy⟩
    | coded h1 h2 h =>
      obtain ⟨x, y, rfl, hx, hy⟩ := ih h
      exact ⟨_, y, (List.append_assoc _ _ _).symm, .coded h1 h2 hx, hy⟩

theorem coded_split {bs : List UInt8} {t u a b : Str} {c : Char} (h : Coded bs t) (hc : c ≠ '%') (hx : ∀ n, ¬ HexDigit c n)
    (he : t ++ u = a ++ c :: b) : ∃ a', a = t ++ a' ∧ u = a' ++ c :: b := by
  induction h generalizing a with
  | nil => exact ⟨a, rfl, he⟩
  | @byte _ _ x y t h1 h2 _ ih =>
    match a, he with
    | [], he => exact absurd (List.cons.inj he).1.symm hc
    | [_], he => simp at he; exact absurd (he.2.1 ▸ h1) (hx _)
    | [_, _], he => simp at he; exact absurd (he.2.2.1 ▸ h2) (hx _)
    | _ :: _ :: _ :: a, he =>
      simp at he
      obtain ⟨rfl, rfl, rfl, he⟩ := he
      obtain ⟨a', rfl, e2⟩ := ih he
      exact ⟨a', rfl, e2⟩

theorem split_text {k : UriKind} {p a b : Str} {c : Char} (hc : c ≠ '%') (hx : ∀ n, ¬ HexDigit c n) (h : UriSpelled k p (a ++ c :: b)) :
    ∃ x y, p = x ++ c :: y ∧ UriSpelled k x a ∧ UriSpelled k y b := by
  generalize ht : a ++ c :: b = t at h
  induction h generalizing a with
  | nil => simp at ht
  | @plain d p t hd h ih =>
    cases a with
    | nil =>
      simp at ht
      obtain ⟨rfl, rfl⟩ := ht
      exact ⟨[], p, rfl, .nil, h⟩
    | cons e a =>
      simp at ht
      obtain ⟨rfl, ht⟩ := ht
      obtain ⟨x, y, rfl, hx', hy⟩ := ih ht
      exact ⟨e :: x, y, rfl, .plain hd hx', hy⟩
  | @coded d p t u h1 h2 h ih =>
    obtain ⟨a', rfl, e2⟩ := coded_split h1 hc hx ht.symm
    obtain ⟨x, y, rfl, hx', hy⟩ := ih e2.symm
    exact ⟨d :: x, y, rfl, .coded h1 h2 hx', hy⟩

theorem not_hex {c : Char} (h : c ∉ g!"0123456789abcdef" ∧ c ∉ g!"0123456789ABCDEF") (n : Nat) : ¬ HexDigit c n := by
  rintro (h1 | h1)
  · exact h.1 (List.mem_of_getElem? h1)
  · exact h.2 (List.mem_of_getElem? h1)

/-- A text without `%` stands for itself. -/
theorem no_codes {k : UriKind} {p t : Str} (h : UriSpelled k p t) (ht : '%' ∉ t) : p = t := by
  induction h with
  | nil => rfl
  | plain _ _ ih => rw [ih fun hm => ht (by simp [hm])]
  | @coded c _ _ _ h1 _ _ _ =>
    exfalso
    generalize hb : String.utf8EncodeChar c = bs at h1
    cases h1 with
    | nil => exact String.utf8EncodeChar_ne_nil hb
    | byte => exact ht (by simp)

/-- Only the code of `%` is `%25`. -/
theorem percent_iff {p t : Str} (h : UriSpelled .host p t) : '%' ∈ p ↔ ∃ a b, t = a ++ g!"%25" ++ b := by
  induction h with
  | nil => simp
  | @plain c p t hc _ ih =>
    have hne : c ≠ '%' := ((plain_iff .host c).1 hc).1
    rw [List.mem_cons, or_iff_right (Ne.symm hne), ih]
    constructor
    · rintro ⟨a, b, rfl⟩
      exact ⟨c :: a, b, rfl⟩
    · rintro ⟨a, b, he⟩
      cases a with
      | nil => exact absurd (List.cons.inj he).1 hne
      | cons d a => exact ⟨a, b, (List.cons.inj he).2⟩
  | @coded c p t u h1 h2 _ ih =>
    by_cases ha : c.toNat < 128
    · have hp : c = '%' := by
        rcases (ascii_byte ha h2 : 128 ≤ c.toNat ∨ c.toNat = 37) with h | h
        · omega
        · rw [← Char.ofNat_toNat c, h]
      subst hp
      refine ⟨fun _ => ?_, fun _ => by simp⟩
      rw [ascii_bytes (by decide)] at h1
      cases h1 with
      | @byte _ _ x y _ hx hy hn =>
        cases hn
        have e1 : '2' = x := by rcases hx with h | h <;> · simpa [show (UInt8.ofNat '%'.toNat).toNat / 16 = 2 by decide] using h
        have e2 : '5' = y := by rcases hy with h | h <;> · simpa [show (UInt8.ofNat '%'.toNat).toNat % 16 = 5 by decide] using h
        subst e1
        subst e2
        exact ⟨[], u, rfl⟩
    · have hne : c ≠ '%' := by rintro rfl; exact ha (by decide)
      rw [List.mem_cons, or_iff_right (Ne.symm hne), ih]
      constructor
      · rintro ⟨a, b, rfl⟩
        exact ⟨t ++ a, b, by simp⟩
      · rintro ⟨a, b, he⟩
        have hb := high_bytes (c := c) (by omega)
        clear ih h2
        generalize String.utf8EncodeChar c = bs at h1 hb
        induction h1 generalizing a with
        | nil => exact ⟨a, b, he⟩
        | @byte x bs d e t hd he' _ ih2 =>
          match a, he with
          | [], he =>
            simp at he
            obtain ⟨rfl, _⟩ := he
            have h1 := unhex_digit hd
            have h2 : unhex '2' = some 2 := by decide
            rw [h2] at h1
            have := Option.some.inj h1
            have := hb x (by simp)
            omega
          | [_], he => simp at he; obtain ⟨_, rfl, _⟩ := he; exact absurd hd (not_hex (by decide) _)
          | [_, _], he => simp at he; obtain ⟨_, _, rfl, _⟩ := he; exact absurd he' (not_hex (by decide) _)
          | _ :: _ :: _ :: a, he =>
            simp at he
            exact ih2 a (by simpa using he.2.2.2) fun b hb' => hb b (by simp [hb'])

/-! ### Hosts -/

theorem coded_first {c : Char} {t : Str} (h : Coded (String.utf8EncodeChar c) t) : ∃ u, t = '%' :: u := by
  generalize hb : String.utf8EncodeChar c = bs at h
  cases h with
  | nil => exact absurd hb String.utf8EncodeChar_ne_nil
  | byte => exact ⟨_, rfl⟩

theorem digits_ascii {p : Str} (h : UriDigits p) : ∀ c ∈ p, c.toNat < 128 ∧ c ≠ '%' ∧ c ≠ ':' ∧ c ∈ uriHostChars := by
  have : ∀ c ∈ g!"0123456789", c.toNat < 128 ∧ c ≠ '%' ∧ c ≠ ':' ∧ c ∈ uriHostChars := by decide +kernel
  exact fun c hc => this c (h c hc)

theorem value_plain {p t : Str} (h : UriSpelled .host p t) (hp : ∀ c ∈ p, c.toNat < 128 ∧ c ≠ '%') : t = p := by
  induction p generalizing t with
  | nil =>
    cases h
    rfl
  | cons c p ih =>
    obtain ⟨u, rfl, hu⟩ := host_first (hp c (by simp)).1 (hp c (by simp)).2 h
    rw [ih hu fun d hd => hp d (by simp [hd])]

theorem port_plain {p : Str} (h : UriPort p) : ∀ c ∈ ']' :: p, c ∈ uriHostChars ∧ c.toNat < 128 ∧ c ≠ '%' := by
  intro c hc
  rcases List.mem_cons.1 hc with rfl | hc
  · decide
  · rcases h with rfl | ⟨n, rfl, hn⟩
    · cases hc
    · rcases List.mem_cons.1 hc with rfl | hc
      · decide
      · have := digits_ascii hn c hc
        exact ⟨this.2.2.2, this.1, this.2.1⟩

theorem escape_plain {p : Str} (h : ∀ c ∈ p, c ∈ uriHostChars) : escape .host p = p := by
  induction p with
  | nil => rfl
  | cons c p ih => rw [escape_cons, escape_one_host (h c (by simp)), ih fun d hd => h d (by simp [hd])]; rfl

theorem text_first {k : UriKind} {p r : Str} {c : Char} (hc : c ≠ '%') (h : UriSpelled k p (c :: r)) : ∃ q, p = c :: q ∧ UriSpelled k q r := by
  generalize ht : c :: r = t at h
  cases h with
  | nil => cases ht
  | plain _ h => cases ht; exact ⟨_, rfl, h⟩
  | coded h1 _ _ =>
    obtain ⟨u, rfl⟩ := coded_first h1
    exact absurd (List.cons.inj ht).1 hc

/-- A host is written as it may be read. -/
theorem host_write {h t : Str} (hh : UriHost UriSpelled h t) (hz : ∀ r, h = '[' :: r → '%' ∈ r → ∀ c ∈ r, c.toNat < 128) :
    UriHost UriSpelled h (escape .host h) := by
  cases hh with
  | name h1 h2 h3 =>
    have hs := host_escape (host_values h3)
    refine .name ?_ ?_ hs
    · intro r he
      rw [he] at hs
      obtain ⟨q, rfl, _⟩ := text_first (by decide) hs
      obtain ⟨u, rfl, _⟩ := host_first (by decide) (by decide) h3
      exact h1 _ rfl
    · intro a b he hb
      rw [he] at hs
      obtain ⟨x, y, rfl, hx, hy⟩ := split_text (by decide) (not_hex (by decide)) hs
      obtain ⟨a', b', rfl, _, hb'⟩ := split_value (by decide) (by decide) h3
      have hn : ':' ∉ b' := by
        intro hm
        obtain ⟨m, n, rfl⟩ := List.append_of_mem hm
        obtain ⟨v, w, rfl, _, _⟩ := split_text (by decide) (not_hex (by decide)) hb'
        obtain ⟨_, _, rfl, _, _⟩ := split_value (by decide) (by decide) hy
        exact hb (by simp)
      have hd := h2 _ _ rfl hn
      have e1 := no_codes hb' fun hm => (digits_ascii hd _ hm).2.1 rfl
      subst e1
      have e2 := value_plain hy fun c hc => ⟨(digits_ascii hd c hc).1, (digits_ascii hd c hc).2.1⟩
      subst e2
      exact hd
  | @address _ i q h1 h2 h3 =>
    obtain ⟨x, y, rfl, hx, hy⟩ := split_text (by decide) (not_hex (by decide)) h3
    have e1 := no_codes hy fun hm => (port_plain h1 _ (by simp [hm])).2.2 rfl
    subst e1
    have hno : '%' ∉ x := fun hm => by
      obtain ⟨a, b, he⟩ := (percent_iff hx).1 hm
      exact h2 a b he
    have hs := host_escape (host_values h3)
    have hsx := host_escape (host_values hx)
    obtain ⟨i', rfl, hi⟩ := text_first (by decide) hx
    have e : escape .host ('[' :: i' ++ ']' :: y) = '[' :: escape .host i' ++ ']' :: y := by
      rw [escape_append, escape_cons, escape_one_host (by decide), escape_plain fun c hc => (port_plain h1 c hc).1]
      rfl
    rw [e] at hs ⊢
    rw [escape_cons, escape_one_host (by decide)] at hsx
    exact .address h1 (fun a b he => hno ((percent_iff hsx).2 ⟨a, b, he⟩)) hs
  | @zone h z e i t q h1 h2 h3 h4 h5 =>
    have e1 := no_codes h5 fun hm => (port_plain h1 _ hm).2.2 rfl
    subst e1
    have hno : '%' ∉ h := fun hm => by
      obtain ⟨a, b, he⟩ := (percent_iff h3).1 hm
      exact h2 a b he
    have hsh := host_escape (host_values h3)
    obtain ⟨i', rfl, hi⟩ := text_first (by decide) h3
    have hzc : ∀ c ∈ z, c ∈ uriHostChars ∨ c = '%' ∨ c = ' ' := by
      intro c hc
      rcases zone_values h4 c hc with h | h
      · have := hz (i' ++ '%' :: z ++ ']' :: q) (by simp) (by simp) c (by simp [hc])
        omega
      · exact h
    have e : escape .host ('[' :: i' ++ '%' :: z ++ ']' :: q) = '[' :: escape .host i' ++ g!"%25" ++ escape .host z ++ ']' :: q := by
      rw [escape_append, escape_append, escape_cons, escape_one_host (by decide), escape_cons .host '%',
        escape_plain fun c hc => (port_plain h1 c hc).1, show escape .host ['%'] = g!"%25" by decide +kernel]
      simp
    rw [escape_cons, escape_one_host (by decide)] at hsh
    rw [e]
    exact .zone h1 (fun a b he => hno ((percent_iff hsh).2 ⟨a, b, he⟩)) hsh (zone_escape hzc) h5

theorem code_at {bs : List UInt8} {t : Str} (h : Coded bs t) : '@' ∉ t := by
  induction h with
  | nil => simp
  | byte hx hy _ ih =>
    intro hm
    simp only [List.mem_cons] at hm
    rcases hm with hm | rfl | rfl | hm
    · cases hm
    · exact not_hex (by decide) _ hx
    · exact not_hex (by decide) _ hy
    · exact ih hm

/-- Characters of a written host. -/
theorem host_write_chars {h t : Str} (hh : UriHost UriSpelled h t) :
    ∀ c ∈ escape .host h, c ≠ '/' ∧ c ≠ '?' ∧ c ≠ '@' ∧ 32 ≤ c.toNat ∧ c.toNat ≠ 127 := by
  have hv : ∀ c ∈ h, 128 ≤ c.toNat ∨ c ∈ uriHostChars ∨ c = '%' ∨ c = ' ' := by
    have hw : ∀ {p t : Str}, UriSpelled .host p t → ∀ c ∈ p, 128 ≤ c.toNat ∨ c ∈ uriHostChars ∨ c = '%' ∨ c = ' ' := by
      intro p t h c hc
      rcases host_values h c hc with h | h | h
      · exact Or.inl h
      · exact Or.inr (Or.inl h)
      · exact Or.inr (Or.inr (Or.inl h))
    cases hh with
    | name _ _ h3 => exact hw h3
    | address _ _ h3 => exact hw h3
    | zone _ _ h3 h4 h5 =>
      intro c hc
      rcases List.mem_append.1 hc with hc | hc
      · rcases List.mem_append.1 hc with hc | hc
        · exact hw h3 c hc
        · rcases List.mem_cons.1 hc with rfl | hc
          · exact Or.inr (Or.inr (Or.inl rfl))
          · exact zone_values h4 c hc
      · exact hw h5 c hc
  clear hh
  induction h with
  | nil => simp [escape]
  | cons d h ih =>
    intro c hc
    rw [escape_cons] at hc
    rcases List.mem_append.1 hc with hc | hc
    · rcases hv d (by simp) with hd | hd | rfl | rfl
      · obtain ⟨t, e, ht⟩ := escape_high hd
        rw [e] at hc
        have h1 := coded_chars ht c hc
        refine ⟨h1.2.2.2, h1.2.2.1, ?_, h1.1, h1.2.1⟩
        rintro rfl
        exact code_at ht hc
      · rw [escape_one_host hd] at hc
        simp only [List.mem_singleton] at hc
        subst hc
        have : ∀ c ∈ uriHostChars, c ≠ '/' ∧ c ≠ '?' ∧ c ≠ '@' ∧ 32 ≤ c.toNat ∧ c.toNat ≠ 127 := by decide +kernel
        exact this c hd
      · rw [show escape .host ['%'] = g!"%25" by decide +kernel] at hc
        have : ∀ c ∈ g!"%25", c ≠ '/' ∧ c ≠ '?' ∧ c ≠ '@' ∧ 32 ≤ c.toNat ∧ c.toNat ≠ 127 := by decide
        exact this c hc
      · rw [show escape .host [' '] = g!"%20" by decide +kernel] at hc
        have : ∀ c ∈ g!"%20", c ≠ '/' ∧ c ≠ '?' ∧ c ≠ '@' ∧ 32 ≤ c.toNat ∧ c.toNat ≠ 127 := by decide
        exact this c hc
    · exact ih (fun x hx => hv x (by simp [hx])) c hc

/-! ### User information -/

theorem user_escape (p : Str) : UriSpelled .user p (escape .user p) := by
  induction p with
  | nil => exact .nil
  | cons c p ih =>
    rw [escape_cons]
    by_cases hc : shouldEscape .user c = true
    · have e : escape .user [c] = (String.utf8EncodeChar c).flatMap fun b => ['%', upperHex (b.toNat / 16), upperHex (b.toNat % 16)] := by
        unfold escape
        rw [List.flatMap_cons, if_pos hc]
        simp
      rw [e]
      exact .coded (coded_upper _) (fun _ _ => trivial) ih
    · have e : escape .user [c] = [c] := by
        unfold escape
        rw [List.flatMap_cons, if_neg hc]
        rfl
      rw [e]
      refine .plain ?_ ih
      show c ≠ '%'
      rintro rfl
      exact hc (by decide)

theorem path_escape (p : Str) : UriSpelled .path p (escape .path p) := by
  induction p with
  | nil => exact .nil
  | cons c p ih =>
    rw [escape_cons]
    by_cases hc : shouldEscape .path c = true
    · have e : escape .path [c] = (String.utf8EncodeChar c).flatMap fun b => ['%', upperHex (b.toNat / 16), upperHex (b.toNat % 16)] := by
        unfold escape
        rw [List.flatMap_cons, if_pos hc]
        simp
      rw [e]
      exact .coded (coded_upper _) (fun _ _ => trivial) ih
    · have e : escape .path [c] = [c] := by
        unfold escape
        rw [List.flatMap_cons, if_neg hc]
        rfl
      rw [e]
      refine .plain ?_ ih
      show c ≠ '%'
      rintro rfl
      exact hc (by decide)

theorem high_user {c : Char} (hn : 128 ≤ c.toNat) : shouldEscape .user c = true := by
  rw [← Bool.not_eq_false]
  intro h
  have hl : isLetter c = false := by unfold isLetter; simp; omega
  have hd : isDigit c = false := by
    rw [← Bool.not_eq_true]
    intro h
    unfold isDigit at h
    rw [Bool.and_eq_true, decide_eq_true_eq, decide_eq_true_eq] at h
    have : c.toNat ≤ 57 := UInt32.le_iff_toNat_le.1 h.2
    omega
  have hm : ∀ l : Str, (∀ d ∈ l, d.toNat < 128) → List.contains l c = false := by
    intro l hx
    rw [← Bool.not_eq_true, List.contains_iff_mem]
    intro hc
    have := hx c hc
    omega
  unfold shouldEscape at h
  rw [hl, hd, hm g!"!$&'()*+,;=:[]<>\"" (by decide), hm g!"-_.~" (by decide), hm g!"$&+,/:;=?@" (by decide)] at h
  simp at h

theorem hex_user : ∀ c ∈ g!"0123456789ABCDEF", c ∈ uriUserChars ∧ c ≠ ':' ∧ c ≠ '@' ∧ c ≠ '/' ∧ c ≠ '?' ∧ 32 ≤ c.toNat ∧ c.toNat ≠ 127 := by
  decide +kernel

theorem upperHex_mem {n : Nat} (h : n < 16) : upperHex n ∈ g!"0123456789ABCDEF" :=
  List.mem_of_getElem? (hexDigit_upper ⟨n, h⟩)

theorem user_escape_chars (p : Str) :
    ∀ c ∈ escape .user p, c ∈ uriUserChars ∧ c ≠ ':' ∧ c ≠ '@' ∧ c ≠ '/' ∧ c ≠ '?' ∧ 32 ≤ c.toNat ∧ c.toNat ≠ 127 := by
  intro c hc
  unfold escape at hc
  obtain ⟨d, hd, hc⟩ := List.mem_flatMap.1 hc
  split at hc
  · obtain ⟨b, _, hc⟩ := List.mem_flatMap.1 hc
    have hb : b.toNat < 256 := b.toNat_lt
    simp only [List.mem_cons, List.not_mem_nil, or_false] at hc
    rcases hc with rfl | rfl | rfl
    · decide
    · exact hex_user _ (upperHex_mem (by omega))
    · exact hex_user _ (upperHex_mem (by omega))
  · rename_i h
    simp only [List.mem_singleton] at hc
    subst hc
    have ha : c.toNat < 128 := by
      apply Decidable.byContradiction
      intro hn
      exact h (high_user (by omega))
    have key : ∀ i : Fin 128, shouldEscape .user (Char.ofNat i.val) = false → (Char.ofNat i.val) ∈ uriUserChars ∧ (Char.ofNat i.val) ≠ ':' ∧
        (Char.ofNat i.val) ≠ '@' ∧ (Char.ofNat i.val) ≠ '/' ∧ (Char.ofNat i.val) ≠ '?' ∧ 32 ≤ (Char.ofNat i.val).toNat ∧
        (Char.ofNat i.val).toNat ≠ 127 := by decide +kernel
    have := key ⟨c.toNat, ha⟩
    simp only [Char.ofNat_toNat] at this
    exact this (by simpa using h)

/-- How an authority is written. -/
def authorityText (u : Option (Str × Option Str)) (h : Str) : Str :=
  (match u with
    | none => []
    | some (n, none) => escape .user n ++ g!"@"
    | some (n, some p) => escape .user n ++ ':' :: escape .user p ++ g!"@") ++ escape .host h

theorem authority_write {u : Option (Str × Option Str)} {h t : Str} (ha : UriAuthority UriSpelled u h t)
    (hz : ∀ r, h = '[' :: r → '%' ∈ r → ∀ c ∈ r, c.toNat < 128) :
    UriAuthority UriSpelled u h (authorityText u h) ∧ ∀ c ∈ authorityText u h, c ≠ '/' ∧ c ≠ '?' ∧ 32 ≤ c.toNat ∧ c.toNat ≠ 127 := by
  cases ha with
  | host h1 h2 =>
    have hc := host_write_chars h2
    refine ⟨.host (fun hm => (hc _ hm).2.2.1 rfl) (host_write h2 hz), fun c hm => ?_⟩
    have := hc c hm
    exact ⟨this.1, this.2.1, this.2.2.2⟩
  | @user n p _ u t h1 h2 h3 =>
    have hc := host_write_chars h3
    have hu := user_escape_chars
    cases h1 with
    | name _ _ _ =>
      constructor
      · show UriAuthority UriSpelled _ _ (escape .user n ++ g!"@" ++ escape .host h)
        rw [List.append_assoc]
        exact .user (.name (fun c hm => (hu _ c hm).1) (fun hm => (hu _ _ hm).2.1 rfl) (user_escape n)) (fun hm => (hc _ hm).2.2.1 rfl)
          (host_write h3 hz)
      · intro c hm
        rcases List.mem_append.1 (hm : c ∈ escape .user n ++ g!"@" ++ escape .host h) with hm | hm
        · rcases List.mem_append.1 hm with hm | hm
          · exact (hu _ c hm).2.2.2
          · simp only [List.mem_singleton] at hm
            subst hm
            decide
        · have := hc c hm
          exact ⟨this.1, this.2.1, this.2.2.2⟩
    | @password p _ _ _ _ _ _ _ =>
      constructor
      · show UriAuthority UriSpelled _ _ (escape .user n ++ ':' :: escape .user p ++ g!"@" ++ escape .host h)
        rw [List.append_assoc]
        exact .user (.password (fun c hm => (hu _ c hm).1) (fun hm => (hu _ _ hm).2.1 rfl) (fun c hm => (hu _ c hm).1) (user_escape n) (user_escape p))
          (fun hm => (hc _ hm).2.2.1 rfl) (host_write h3 hz)
      · intro c hm
        rcases List.mem_append.1 (hm : c ∈ escape .user n ++ ':' :: escape .user p ++ g!"@" ++ escape .host h) with hm | hm
        · rcases List.mem_append.1 hm with hm | hm
          · rcases List.mem_append.1 hm with hm | hm
            · exact (hu _ c hm).2.2.2
            · rcases List.mem_cons.1 hm with rfl | hm
              · decide
              · exact (hu _ c hm).2.2.2
          · simp only [List.mem_singleton] at hm
            subst hm
            decide
        · have := hc c hm
          exact ⟨this.1, this.2.1, this.2.2.2⟩

/-! ### URIs -/

theorem query_write (q : Option Str) : (if decide (q = some []) || (q.getD []) ≠ [] then g!"?" ++ q.getD [] else []) = uriQuery q := by
  match q with
  | none => rfl
  | some [] => rfl
  | some (c :: t) => simp [uriQuery]

theorem valid_chars {s : Str} (h : validEncoded s = true) : ∀ c ∈ s, c ≠ '?' ∧ 32 ≤ c.toNat ∧ c.toNat ≠ 127 := by
  intro c hc
  unfold validEncoded at h
  rw [List.all_eq_true] at h
  have h := h c hc
  by_cases ha : c.toNat < 128
  · have key : ∀ i : Fin 128, (g!"!$&'()*+,;=:@[]%".contains (Char.ofNat i.val) || !shouldEscape .path (Char.ofNat i.val)) = true →
        (Char.ofNat i.val) ≠ '?' ∧ 32 ≤ (Char.ofNat i.val).toNat ∧ (Char.ofNat i.val).toNat ≠ 127 := by decide +kernel
    have := key ⟨c.toNat, ha⟩
    simp only [Char.ofNat_toNat] at this
    exact this h
  · refine ⟨?_, by omega, by omega⟩
    rintro rfl
    exact ha (by decide)

/-- How a path is written. -/
theorem path_write {u : Request} {p0 : Str} (hr : u.rawPath = [] ∨ (UriSpelled .path p0 u.rawPath ∧ ∃ r, u.rawPath = '/' :: r)) (p : Str) :
    ∃ t, ({ u with path := p } : Request).escapedPath = t ∧ UriSpelled .path p t ∧ (∀ c ∈ t, c ≠ '?' ∧ 32 ≤ c.toNat ∧ c.toNat ≠ 127) ∧
      ((∃ r, p = '/' :: r) → ∃ r, t = '/' :: r) := by
  refine ⟨_, rfl, ?_⟩
  unfold Request.escapedPath
  dsimp only
  split
  · rename_i h
    simp only [Bool.and_eq_true, decide_eq_true_eq, beq_iff_eq] at h
    obtain ⟨h1, h2⟩ := hr.resolve_left h.1.1
    have e := unescapePart_uri h1
    have e2 : some p0 = some p := e.symm.trans h.2
    cases e2
    exact ⟨h1, valid_chars h.1.2, fun _ => h2⟩
  · split
    · rename_i h
      subst h
      exact ⟨.plain (by show '*' ≠ '%'; decide) .nil, by decide, fun ⟨r, h⟩ => by cases h⟩
    · refine ⟨path_escape p, fun c hc => ?_, ?_⟩
      · have := spelled_chars (spelled_escape p) c hc
        exact ⟨this.2.2, this.1, this.2.1⟩
      · rintro ⟨r, rfl⟩
        exact ⟨_, escape_slash r⟩

/-- The text of a URL with a host. -/
theorem string_full {u : Request} {us : Option (Str × Option Str)} {p : Str} (q : Option Str) (hs : u.scheme ≠ []) (ho : u.opaquePart = [])
    (hh : u.host ≠ []) (hu : u.user = us.map fun x => ⟨x.1, x.2⟩) (hm : u.omitHost = false) (hf : u.forceQuery = decide (q = some []))
    (hq : u.rawQuery = q.getD []) (hp : u.escapedPath = p) :
    u.string = u.scheme ++ ':' :: (g!"//" ++ authorityText us u.host ++ (if p ≠ [] && !hasPrefix p g!"/" then '/' :: p else p) ++ uriQuery q) := by
  unfold Request.string
  dsimp only
  simp only [hs, ho, hh, hm, hp, ne_eq, not_true_eq_false, not_false_eq_true, decide_true, decide_false, Bool.true_or, Bool.false_and,
    Bool.false_eq_true, if_true, if_false, Bool.and_true]
  rw [hf, hq, query_write, hu]
  unfold authorityText
  match us with
  | none => split <;> simp_all
  | some (n, none) => split <;> simp_all [User.string]
  | some (n, some p) => split <;> simp_all [User.string]

theorem lower_scheme {s : Str} (h : UriScheme s) : UriScheme (s.map Char.toLower) ∧ (s.map Char.toLower).map Char.toLower = s.map Char.toLower ∧
    UriChars (s.map Char.toLower) := by
  have k1 : ∀ c ∈ g!"abcdefghijklmnopqrstuvwxyzABCDEFGHIJKLMNOPQRSTUVWXYZ",
      c.toLower ∈ g!"abcdefghijklmnopqrstuvwxyzABCDEFGHIJKLMNOPQRSTUVWXYZ" ∧ c.toLower.toLower = c.toLower ∧ 32 ≤ c.toLower.toNat ∧
        c.toLower.toNat ≠ 127 := by decide +kernel
  have k2 : ∀ c ∈ g!"abcdefghijklmnopqrstuvwxyzABCDEFGHIJKLMNOPQRSTUVWXYZ0123456789+-.",
      c.toLower ∈ g!"abcdefghijklmnopqrstuvwxyzABCDEFGHIJKLMNOPQRSTUVWXYZ0123456789+-." ∧ c.toLower.toLower = c.toLower ∧
        32 ≤ c.toLower.toNat ∧ c.toLower.toNat ≠ 127 := by decide +kernel
  obtain ⟨c, t, rfl, hc, ht⟩ := h
  refine ⟨⟨c.toLower, t.map Char.toLower, rfl, (k1 c hc).1, ?_⟩, ?_, ?_⟩
  · intro d hd
    obtain ⟨e, he, rfl⟩ := List.mem_map.1 hd
    exact (k2 e (ht e he)).1
  · rw [List.map_map]
    apply List.map_congr_left
    intro d hd
    rcases List.mem_cons.1 hd with rfl | hd
    · exact (k1 _ hc).2.1
    · exact (k2 d (ht d hd)).2.1
  · intro d hd
    obtain ⟨e, he, rfl⟩ := List.mem_map.1 hd
    rcases List.mem_cons.1 he with rfl | he
    · exact (k1 _ hc).2.2
    · exact (k2 e (ht e he)).2.2

/-- What is read for a URI whose parts are texts. -/
theorem uri_parts {parts : UriParts} {s : Str} (h : UriOf parts s) :
    ∃ raw, parseRequest s = some
        { scheme := parts.scheme, opaquePart := parts.rest, user := parts.user.map fun x => ⟨x.1, x.2⟩, host := parts.host, path := parts.path,
          rawPath := raw, omitHost := parts.hostless, forceQuery := decide (parts.query = some []), rawQuery := parts.query.getD [] } ∧
      (raw = [] ∨ (UriSpelled .path parts.path raw ∧ ∃ r, raw = '/' :: r)) := by
  obtain ⟨u, h1, ⟨a1, a2, a3, a4, a5, a6, a7, a8⟩, h2⟩ := uri_read (E := fun a b => a = b) (fun k p t h => ⟨p, unescapePart_uri h, rfl⟩)
    (fun a b c d h h' => by rw [h, h']) (fun c a b h => by rw [h]) rfl h.1 h.2
  refine ⟨u.rawPath, ?_, h2⟩
  rw [h1]
  have hu : u.user = parts.user.map fun x => ⟨x.1, x.2⟩ := by
    revert a3
    match parts.user, u.user with
    | none, none => exact fun _ => rfl
    | some (n, none), some ⟨m, none⟩ => exact fun h => by cases (h : n = m); rfl
    | some (n, some p), some ⟨m, some q⟩ => rintro ⟨rfl, rfl⟩; rfl
    | some (n, some p), some ⟨m, none⟩ => exact fun h => h.elim
    | some (n, none), some ⟨m, some q⟩ => exact fun h => h.elim
    | none, some _ => exact fun h => h.elim
    | some (n, none), none => exact fun h => h.elim
    | some (n, some p), none => exact fun h => h.elim
  congr 1
  cases u
  simp only at a1 a2 a4 a5 a6 a7 a8 hu
  subst a1 a2 a4 a5 a6 a7 a8 hu
  rfl

/-- A URI with another path is written as it may be read. -/
theorem uri_write {parts : UriParts} {s : Str} (h : UriOf parts s) (hh : parts.host ≠ [])
    (hz : ∀ r, parts.host = '[' :: r → '%' ∈ r → ∀ c ∈ r, c.toNat < 128) (p : Str) (hp : p ≠ []) :
    ∃ u, parseRequest s = some u ∧ u.path = parts.path ∧
      UriOf { parts with path := if hasPrefix p g!"/" then p else '/' :: p } ({ u with path := p } : Request).string := by
  obtain ⟨raw, h1, h2⟩ := uri_parts h
  refine ⟨_, h1, rfl, ?_⟩
  obtain ⟨hc, h⟩ := h
  cases h with
  | star => exact absurd rfl hh
  | path => exact absurd rfl hh
  | bare => exact absurd rfl hh
  | rooted => exact absurd rfl hh
  | @full x a h p0 t us q k1 k2 k3 k4 k5 k6 k7 =>
    dsimp only at hh hz h1 h2 ⊢
    obtain ⟨w1, w2⟩ := authority_write k4 hz
    obtain ⟨l1, l2, l3⟩ := lower_scheme k1
    obtain ⟨t', e1, e2, e3, e4⟩ := path_write
      (u := { scheme := x.map Char.toLower, user := us.map fun x => ⟨x.1, x.2⟩, host := h, path := p0, rawPath := raw
              forceQuery := decide (q = some []), rawQuery := q.getD [] }) h2 p
    rw [string_full (us := us) q (scheme_ne l1) rfl hh rfl rfl rfl rfl e1]
    dsimp only
    have hne : t' ≠ [] := by
      rintro rfl
      exact hp (no_codes e2 (by simp))
    have hpre : ∃ t'', (if t' ≠ [] && !hasPrefix t' g!"/" then '/' :: t' else t') = '/' :: t'' ∧ (∀ c ∈ '/' :: t'', c ≠ '?' ∧ 32 ≤ c.toNat ∧ c.toNat ≠ 127) ∧
        UriSpelled .path (if hasPrefix p g!"/" then p else '/' :: p) ('/' :: t'') := by
      by_cases hpp : hasPrefix p g!"/" = true
      · obtain ⟨r, rfl⟩ := (hasPrefix_iff _ _).1 hpp
        obtain ⟨r', rfl⟩ := e4 ⟨r, rfl⟩
        rw [(hasPrefix_iff ('/' :: r') g!"/").2 ⟨r', rfl⟩, hpp]
        exact ⟨r', by simp, e3, e2⟩
      · have hnp : hasPrefix t' g!"/" = false := by
          rw [← Bool.not_eq_true, hasPrefix_iff]
          rintro ⟨r, rfl⟩
          obtain ⟨q', rfl, _⟩ := text_first (by decide) e2
          exact hpp ((hasPrefix_iff _ _).2 ⟨q', rfl⟩)
        rw [hnp, if_neg hpp]
        refine ⟨t', by simp [hne], ?_, .plain (by show '/' ≠ '%'; decide) e2⟩
        intro c hc
        rcases List.mem_cons.1 hc with rfl | hc
        · decide
        · exact e3 c hc
    obtain ⟨t'', f1, f2, f3⟩ := hpre
    rw [f1]
    constructor
    · intro c hm
      rcases List.mem_append.1 hm with hm | hm
      · exact l3 c hm
      · rcases List.mem_cons.1 hm with rfl | hm
        · decide
        · rcases List.mem_append.1 hm with hm | hm
          · rcases List.mem_append.1 hm with hm | hm
            · rcases List.mem_append.1 hm with hm | hm
              · have : ∀ c ∈ g!"//", 32 ≤ c.toNat ∧ c.toNat ≠ 127 := by decide
                exact this c hm
              · exact (w2 c hm).2.2
            · exact (f2 c hm).2
          · exact hc c (by simp [hm])
    · have := RequestUri.full (D := UriSpelled) (q := q) l1 (fun hm => (w2 _ hm).1 rfl) (fun hm => (w2 _ hm).2.1 rfl) w1 (Or.inr ⟨t'', rfl⟩)
        (fun hm => (f2 _ hm).1 rfl) f3
      rw [l2] at this
      exact this

end Osv.Url
