import Verif.Spec.TomlDoc
/-!
# Lines, strings and keys of TOML texts
-/
namespace Osv.TomlText
open Osv Spec

theorem blank_facts {c : Char} (h : c = ' ' ∨ c = '\t') : isBlank c = true ∧ c ≠ '\n' ∧ c ≠ '\r' ∧ c ≠ '#' := by
  rcases h with rfl | rfl <;> decide

theorem tomlChar_facts {c : Char} (h : TomlChar c) : isBad c = false ∧ c ≠ '\n' ∧ c ≠ '\r' := by
  rcases h with rfl | ⟨h1, h2⟩
  · decide
  · refine ⟨?_, ?_, ?_⟩
    · have h3 : ¬ c.toNat < 32 := by omega
      simp [isBad, h2, h3]
    · rintro rfl; revert h1; decide
    · rintro rfl; revert h1; decide

theorem skipBlank_append {b rest : Str} (hb : TomlBlank b) (hr : ∀ c, rest.head? = some c → isBlank c = false) :
    skipBlank (b ++ rest) = rest := by
  induction b with
  | nil =>
    cases rest with
    | nil => rfl
    | cons c t => simp [skipBlank, hr c rfl]
  | cons a b ih =>
    have := ih (fun c hc => hb c (List.mem_cons_of_mem _ hc))
    simp [skipBlank, (blank_facts (hb a (by simp))).1] at this ⊢
    exact this

/-! ### Line ends -/

theorem lineEnd_cons {c : Char} (hn : c ≠ '\n') (hr : c ≠ '\r') (m : Bool) (s : Str) :
    lineEnd m (c :: s) = if m then if isBad c then none else lineEnd true s
      else if isBlank c then lineEnd false s else if c = '#' then lineEnd true s else none := by
  conv => lhs; unfold lineEnd
  split
  · exact absurd (by simp_all) hn
  · simp_all
  · simp_all
  · rename_i h; injection h with h1 h2; subst h1 h2; rfl

theorem lineEnd_newline {n : Str} (h : TomlNewline n) (m : Bool) (u : Str) : lineEnd m (n ++ u) = some u := by
  rcases h with rfl | rfl <;> simp [lineEnd]

theorem lineEnd_comment {t : Str} (h : ∀ c ∈ t, TomlChar c) (s : Str) : lineEnd true (t ++ s) = lineEnd true s := by
  induction t with
  | nil => rfl
  | cons c t ih =>
    obtain ⟨h1, h2, h3⟩ := tomlChar_facts (h c (by simp))
    rw [List.cons_append, lineEnd_cons h2 h3, if_pos rfl, h1, ih (fun c hc => h c (List.mem_cons_of_mem _ hc))]; rfl

theorem lineEnd_blank {b : Str} (h : TomlBlank b) (s : Str) : lineEnd false (b ++ s) = lineEnd false s := by
  induction b with
  | nil => rfl
  | cons c b ih =>
    obtain ⟨h1, h2, h3, _⟩ := blank_facts (h c (by simp))
    rw [List.cons_append, lineEnd_cons h2 h3, if_neg (by decide), h1, ih (fun c hc => h c (List.mem_cons_of_mem _ hc))]; rfl

theorem lineEnd_of {u s : Str} (h : TomlEnd u s) : lineEnd false s = some u := by
  obtain ⟨b, c, hb, hc, h⟩ := h
  have key : ∀ x, (∀ m, lineEnd m x = some u) → lineEnd false (c ++ x) = some u := by
    intro x hx
    rcases hc with rfl | ⟨t, rfl, ht⟩
    · exact hx false
    · rw [List.cons_append, lineEnd_cons (by decide) (by decide)]
      simp only [Bool.false_eq_true, if_false, show isBlank '#' = false from by decide, if_true]
      rw [lineEnd_comment ht]; exact hx true
  rcases h with ⟨n, hn, rfl⟩ | ⟨rfl, rfl⟩
  · rw [lineEnd_blank hb]
    exact key _ (fun m => lineEnd_newline hn m u)
  · rw [lineEnd_blank hb]
    have := key [] (fun m => by simp [lineEnd])
    simpa using this

theorem lineEnd_skipBlank (s : Str) : lineEnd false (skipBlank s) = lineEnd false s := by
  induction s with
  | nil => rfl
  | cons c s ih =>
    by_cases h : isBlank c = true
    · have h' : c = ' ' ∨ c = '\t' := by simpa [isBlank] using h
      obtain ⟨_, h2, h3, _⟩ := blank_facts h'
      rw [lineEnd_cons h2 h3, if_neg (by decide), h, if_pos rfl, ← ih]
      simp [skipBlank, h]
    · simp [skipBlank, h]

theorem tomlEnd_length {u s : Str} (h : TomlEnd u s) (hs : s ≠ []) : u.length < s.length := by
  obtain ⟨b, c, _, _, h⟩ := h
  rcases h with ⟨n, hn, rfl⟩ | ⟨rfl, rfl⟩
  · rcases hn with rfl | rfl <;> simp <;> omega
  · cases h : b ++ c with
    | nil => exact absurd h hs
    | cons _ _ => simp

/-- What the first character behind a value is not. -/
def After (s : Str) : Prop := ∀ c, s.head? = some c → isBareValue c = false ∧ c ≠ '"' ∧ c ≠ '\''

theorem after_cons {c : Char} {s : Str} (h : isBareValue c = false ∧ c ≠ '"' ∧ c ≠ '\'') : After (c :: s) := by
  intro d hd; simp at hd; exact hd ▸ h

theorem after_nil : After [] := by intro c h; simp at h

theorem after_newline {n : Str} (h : TomlNewline n) (s : Str) : After (n ++ s) := by
  rcases h with rfl | rfl <;> exact after_cons (by decide)

theorem after_blank {b s : Str} (h : TomlBlank b) (hs : After s) : After (b ++ s) := by
  cases b with
  | nil => exact hs
  | cons c b =>
    apply after_cons
    rcases h c (by simp) with rfl | rfl <;> decide

theorem after_end {u s : Str} (h : TomlEnd u s) : After s := by
  obtain ⟨b, c, hb, hc, h⟩ := h
  have key : ∀ x, After x → After (c ++ x) := by
    intro x hx
    rcases hc with rfl | ⟨t, rfl, _⟩
    · exact hx
    · exact after_cons (by decide)
  rcases h with ⟨n, hn, rfl⟩ | ⟨rfl, rfl⟩
  · exact after_blank hb (key _ (after_newline hn u))
  · exact after_blank hb (by simpa using key [] after_nil)

theorem after_gap {g s : Str} (h : TomlGap g) (hs : After s) : After (g ++ s) := by
  cases h with
  | nil => exact hs
  | blank hc _ => apply after_cons; rcases hc with rfl | rfl <;> decide
  | newline hn _ => rw [List.append_assoc]; exact after_newline hn _
  | comment _ _ _ => exact after_cons (by decide)

/-! ### Gaps -/

theorem skipGap_cons {c : Char} (hn : c ≠ '\n') (hr : c ≠ '\r') (m : Bool) (s : Str) :
    skipGap m (c :: s) = if m then if isBad c then none else skipGap true s
      else if isBlank c then skipGap false s else if c = '#' then skipGap true s else some (c :: s) := by
  conv => lhs; unfold skipGap
  split
  · simp_all
  · simp_all
  · simp_all
  · rename_i h; injection h with h1 h2; subst h1 h2; rfl

theorem skipGap_newline {n : Str} (h : TomlNewline n) (m : Bool) (u : Str) : skipGap m (n ++ u) = skipGap false u := by
  rcases h with rfl | rfl <;> simp [skipGap]

theorem skipGap_comment {t : Str} (h : ∀ c ∈ t, TomlChar c) (s : Str) : skipGap true (t ++ s) = skipGap true s := by
  induction t with
  | nil => rfl
  | cons c t ih =>
    obtain ⟨h1, h2, h3⟩ := tomlChar_facts (h c (by simp))
    rw [List.cons_append, skipGap_cons h2 h3, if_pos rfl, h1, ih (fun c hc => h c (List.mem_cons_of_mem _ hc))]; rfl

theorem skipGap_append {g : Str} (h : TomlGap g) (s : Str) : skipGap false (g ++ s) = skipGap false s := by
  induction h with
  | nil => rfl
  | blank hc _ ih =>
    obtain ⟨h1, h2, h3, _⟩ := blank_facts hc
    rw [List.cons_append, skipGap_cons h2 h3, if_neg (by decide), h1]; exact ih
  | newline hn _ ih => rw [List.append_assoc, skipGap_newline hn, ih]
  | @comment t n s' ht hn _ ih =>
    rw [List.cons_append, skipGap_cons (by decide) (by decide), if_neg (by decide), if_neg (by decide), if_pos rfl,
      List.append_assoc, skipGap_comment ht, List.append_assoc, skipGap_newline hn, ih]

/-- The first character of a value, a comma or a bracket. -/
theorem skipGap_stop {c : Char} (h : c ≠ '\n' ∧ c ≠ '\r' ∧ isBlank c = false ∧ c ≠ '#') (s : Str) :
    skipGap false (c :: s) = some (c :: s) := by
  rw [skipGap_cons h.1 h.2.1, if_neg (by decide), h.2.2.1, if_neg (by decide), if_neg h.2.2.2]

/-! ### Strings -/

theorem hexDigit_toml {c : Char} {n : Nat} (h : HexDigit c n) : hexDigit c = some n := by
  have key : ∀ s : Str, s.length = 16 → (∀ i < 16, (s[i]?).bind hexDigit = some i) → s[n]? = some c → hexDigit c = some n := by
    intro s hs hk hc
    have hn : n < 16 := by
      have := (List.getElem?_eq_some_iff.1 hc).1; omega
    have := hk n hn
    rwa [hc] at this
  rcases h with h | h
  · exact key _ (by decide) (by decide) h
  · exact key _ (by decide) (by decide) h

theorem hexNumber_each {ds : Str} {vs : List Nat} (h : Each HexDigit ds vs) (acc : Nat) :
    hexNumber acc ds = some (vs.foldl (fun a d => a * 16 + d) acc) := by
  induction h generalizing acc with
  | nil => rfl
  | cons hd _ ih => rw [hexNumber, hexDigit_toml hd]; exact ih _

theorem scalar_of {ds : Str} {n : Nat} (h : TomlHex ds n) (hs : TomlScalar n) : scalar ds = some (Char.ofNat n) := by
  obtain ⟨vs, hv, rfl⟩ := h
  rw [scalar, hexNumber_each hv, Option.bind_some]
  exact if_pos hs

theorem escape_of {c : Char} {e : Str} (h : TomlEscape c e) :
    ∃ d e', e = '\\' :: d :: e' ∧ isBlank d = false ∧ d ≠ '\n' ∧ d ≠ '\r' ∧ ∀ rest, escape (d :: (e' ++ rest)) = some (c, rest) := by
  cases h with
  | @short e c h =>
    refine ⟨e, [], rfl, ?_⟩
    simp only [List.mem_cons, Prod.mk.injEq, List.not_mem_nil, or_false] at h
    rcases h with ⟨rfl, rfl⟩ | ⟨rfl, rfl⟩ | ⟨rfl, rfl⟩ | ⟨rfl, rfl⟩ | ⟨rfl, rfl⟩ | ⟨rfl, rfl⟩ | ⟨rfl, rfl⟩ <;>
      exact ⟨by decide, by decide, by decide, fun _ => rfl⟩
  | @four ds n hl hn hs =>
    refine ⟨'u', ds, rfl, by decide, by decide, by decide, fun rest => ?_⟩
    have : (ds ++ rest).take 4 = ds := by rw [← hl]; simp
    have h2 : (ds ++ rest).drop 4 = rest := by rw [← hl]; simp
    rw [escape, if_pos rfl, if_pos (by simp; omega), this, h2, scalar_of hn hs]; rfl
  | @eight ds n hl hn hs =>
    refine ⟨'U', ds, rfl, by decide, by decide, by decide, fun rest => ?_⟩
    have : (ds ++ rest).take 8 = ds := by rw [← hl]; simp
    have h2 : (ds ++ rest).drop 8 = rest := by rw [← hl]; simp
    rw [escape, if_neg (by decide), if_pos rfl, if_pos (by simp; omega), this, h2, scalar_of hn hs]; rfl

theorem basic_of {t raw : Str} (h : TomlBasic t raw) : ∀ n rest, raw.length < n → basic n (raw ++ '"' :: rest) = some (t, rest) := by
  induction h with
  | nil =>
    intro n rest hn
    obtain ⟨n, rfl⟩ : ∃ m, n = m + 1 := ⟨n - 1, by omega⟩
    simp [basic]
  | @char c t raw hc hq hb _ ih =>
    intro n rest hn
    obtain ⟨n, rfl⟩ : ∃ m, n = m + 1 := ⟨n - 1, by omega⟩
    rw [List.cons_append, basic, if_neg hq, if_neg hb, (tomlChar_facts hc).1, ih n rest (by simp at hn; omega)]; rfl
  | @escape c e t raw he _ ih =>
    intro n rest hn
    obtain ⟨n, rfl⟩ : ∃ m, n = m + 1 := ⟨n - 1, by omega⟩
    obtain ⟨d, e', rfl, _, _, _, hx⟩ := escape_of he
    rw [List.append_assoc, List.cons_append, basic, if_neg (by decide), if_pos rfl, List.cons_append, hx, Option.bind_some,
      ih n rest (by simp at hn; omega)]; rfl

theorem literal_of {t : Str} (h : TomlLiteral t) (rest : Str) : literal (t ++ '\'' :: rest) = some (t, rest) := by
  induction t with
  | nil => simp [literal]
  | cons c t ih =>
    obtain ⟨h1, h2⟩ := h c (by simp)
    rw [List.cons_append, literal, if_neg h2, (tomlChar_facts h1).1, ih (fun c hc => h c (List.mem_cons_of_mem _ hc))]; rfl

theorem newline_of {n : Str} (h : TomlNewline n) (s : Str) : newline (n ++ s) = some s := by
  rcases h with rfl | rfl <;> simp [newline]

theorem newline_none {s : Str} (h1 : s.head? ≠ some '\n') (h2 : s.head? ≠ some '\r') : newline s = none := by
  unfold newline
  split <;> simp_all

theorem quotes_none {q : Char} {s : Str} (h : s.head? ≠ some q) : quotes q s = none := by
  unfold quotes
  split
  · rw [if_neg]; rintro ⟨rfl, _⟩; simp at h
  · rfl

theorem quotes_none1 {q : Char} {s : Str} (h : s.head? ≠ some q) : quotes q (q :: s) = none := by
  unfold quotes
  split
  · rename_i h'; injection h' with h1 h2; subst h1 h2
    rw [if_neg]; rintro ⟨_, rfl, _⟩; simp at h
  · rfl

theorem quotes_none2 {q : Char} {s : Str} (h : s.head? ≠ some q) : quotes q (q :: q :: s) = none := by
  unfold quotes
  split
  · rename_i h'; injection h' with h1 h2; injection h2 with h2 h3; subst h1 h2 h3
    rw [if_neg]; rintro ⟨_, _, rfl⟩; simp at h
  · rfl

theorem quotes_some (q : Char) (s : Str) : quotes q (q :: q :: q :: s) = some s := by simp [quotes]

theorem closing0 {q : Char} {s : Str} (h : s.head? ≠ some q) : closing q s = ([], s) := by
  unfold closing
  split
  · rw [if_neg]; rintro rfl; simp at h
  · rw [if_neg]; rintro rfl; simp at h
  · rfl

theorem closing1 {q : Char} {s : Str} (h : s.head? ≠ some q) : closing q (q :: s) = ([q], s) := by
  cases s with
  | nil => simp [closing]
  | cons a s => rw [closing, if_pos rfl, if_neg]; rintro rfl; simp at h

theorem closing2 (q : Char) (s : Str) : closing q (q :: q :: s) = ([q, q], s) := by simp [closing]

theorem newline_head {n : Str} (h : TomlNewline n) (s : Str) :
    ∃ c t, n ++ s = c :: t ∧ (c = '\n' ∨ c = '\r') := by
  rcases h with rfl | rfl
  · exact ⟨_, _, rfl, .inl rfl⟩
  · exact ⟨_, _, rfl, .inr rfl⟩

theorem lines_ne {t raw : Str} (h : TomlLines t raw) : raw ≠ [] := by
  cases h with
  | newline hn _ => rcases hn with rfl | rfl <;> simp
  | escape he _ => obtain ⟨d, e', rfl, _⟩ := escape_of he; simp
  | _ => simp

theorem rawLines_ne {t raw : Str} (h : TomlRawLines t raw) : raw ≠ [] := by
  cases h with
  | newline hn _ => rcases hn with rfl | rfl <;> simp
  | _ => simp

theorem head_append {raw rest : Str} (h : raw ≠ []) : (raw ++ rest).head? = raw.head? := by
  cases raw with
  | nil => exact absurd rfl h
  | cons a b => rfl

theorem mlBasic_of {t raw : Str} (h : TomlLines t raw) :
    ∀ n rest, raw.length ≤ n → rest.head? ≠ some '"' → mlBasic n (raw ++ rest) = some (t, rest) := by
  have hpos : ∀ n : Nat, ∀ k, k + 1 ≤ n → ∃ m, n = m + 1 := fun n k h => ⟨n - 1, by omega⟩
  induction h with
  | close =>
    intro n rest hn hr
    obtain ⟨n, rfl⟩ := hpos n 0 (by simp at hn; omega)
    show mlBasic (n + 1) ('"' :: '"' :: '"' :: rest) = _
    rw [mlBasic, quotes_some]; simp [closing0 hr]
  | close1 =>
    intro n rest hn hr
    obtain ⟨n, rfl⟩ := hpos n 0 (by simp at hn; omega)
    show mlBasic (n + 1) ('"' :: '"' :: '"' :: '"' :: rest) = _
    rw [mlBasic, quotes_some]; simp [closing1 hr]
  | close2 =>
    intro n rest hn hr
    obtain ⟨n, rfl⟩ := hpos n 0 (by simp at hn; omega)
    show mlBasic (n + 1) ('"' :: '"' :: '"' :: '"' :: '"' :: rest) = _
    rw [mlBasic, quotes_some]; simp [closing2]
  | @char c t raw hc hq hb _ ih =>
    intro n rest hn hr
    obtain ⟨n, rfl⟩ := hpos n _ (by simpa using hn)
    obtain ⟨h1, h2, h3⟩ := tomlChar_facts hc
    rw [List.cons_append, mlBasic, quotes_none (by simpa using hq)]
    dsimp only
    rw [newline_none (by simpa using h2) (by simpa using h3)]
    dsimp only
    rw [if_neg hb, h1, ih n rest (by simp at hn; omega) hr]; rfl
  | @quote t raw ht hh ih =>
    intro n rest hn hr
    obtain ⟨n, rfl⟩ := hpos n _ (by simpa using hn)
    rw [List.cons_append, mlBasic, quotes_none1 (by rw [head_append (lines_ne ht)]; exact hh)]
    dsimp only
    rw [newline_none (by simp) (by simp)]
    dsimp only
    rw [if_neg (by decide), if_neg (by decide), ih n rest (by simp at hn; omega) hr]; rfl
  | @quote2 t raw ht hh ih =>
    intro n rest hn hr
    obtain ⟨n, rfl⟩ : ∃ m, n = m + 1 + 1 := ⟨n - 2, by simp at hn; omega⟩
    have hh' : (raw ++ rest).head? ≠ some '"' := by rw [head_append (lines_ne ht)]; exact hh
    rw [List.cons_append, List.cons_append, mlBasic, quotes_none2 hh']
    dsimp only
    rw [newline_none (by simp) (by simp)]
    dsimp only
    rw [if_neg (by decide), if_neg (by decide), mlBasic, quotes_none1 hh']
    dsimp only
    rw [newline_none (by simp) (by simp)]
    dsimp only
    rw [if_neg (by decide), if_neg (by decide), ih n rest (by simp at hn; omega) hr]; rfl
  | @newline m t raw hm _ ih =>
    intro n rest hn hr
    have hl : 1 ≤ m.length := by rcases hm with rfl | rfl <;> simp
    obtain ⟨n, rfl⟩ := hpos n 0 (by simp at hn; omega)
    rw [List.append_assoc]
    have hq : quotes '"' (m ++ (raw ++ rest)) = none := by
      obtain ⟨c, u, hcu, hc⟩ := newline_head hm (raw ++ rest)
      rw [hcu]; apply quotes_none
      rcases hc with rfl | rfl <;> simp
    conv => lhs; unfold mlBasic
    simp only [hq]
    rw [newline_of hm]
    dsimp only
    rw [ih n rest (by simp at hn; omega) hr]
    have : (m ++ (raw ++ rest)).take ((m ++ (raw ++ rest)).length - (raw ++ rest).length) = m := by
      rw [show (m ++ (raw ++ rest)).length - (raw ++ rest).length = m.length from by simp]; simp
    rw [this]; rfl
  | @escape c e t raw he _ ih =>
    intro n rest hn hr
    obtain ⟨d, e', rfl, h1, h2, h3, hx⟩ := escape_of he
    obtain ⟨n, rfl⟩ := hpos n 0 (by simp at hn; omega)
    have hs : skipBlank (d :: (e' ++ (raw ++ rest))) = d :: (e' ++ (raw ++ rest)) := by simp [skipBlank, h1]
    rw [List.append_assoc, List.cons_append, mlBasic, quotes_none (by simp)]
    dsimp only
    rw [newline_none (by simp) (by simp)]
    dsimp only
    rw [if_pos rfl, List.cons_append, hs, newline_none (by simpa using h2) (by simpa using h3)]
    dsimp only
    rw [hx, Option.bind_some, ih n rest (by simp at hn; omega) hr]; rfl
  | @trim b m w t raw hb hm hw ht h1 h2 h3 h4 ih =>
    intro n rest hn hr
    obtain ⟨n, rfl⟩ := hpos n 0 (by simp at hn; omega)
    have hs : skipBlank (b ++ (m ++ (w ++ (raw ++ rest)))) = m ++ (w ++ (raw ++ rest)) := by
      apply skipBlank_append hb
      intro c hc
      obtain ⟨c', u, hcu, hc'⟩ := newline_head hm (w ++ (raw ++ rest))
      rw [hcu] at hc; simp at hc; subst hc
      rcases hc' with rfl | rfl <;> decide
    have hd : (w ++ (raw ++ rest)).dropWhile isSpace = raw ++ rest := by
      clear hn hs
      induction w with
      | nil =>
        obtain ⟨c, u, rfl⟩ := List.exists_cons_of_ne_nil (lines_ne ht)
        simp at h1 h2 h3 h4
        simp [isSpace, isBlank, h1, h2, h3, h4]
      | cons c w ih' =>
        have hc : isSpace c = true := by rcases hw c (by simp) with rfl | rfl | rfl | rfl <;> decide
        rw [List.cons_append, List.dropWhile_cons_of_pos hc]
        exact ih' (fun c hc => hw c (List.mem_cons_of_mem _ hc))
    rw [List.cons_append, mlBasic, quotes_none (by simp)]
    dsimp only
    rw [newline_none (by simp) (by simp)]
    dsimp only
    rw [if_pos rfl, List.append_assoc, List.append_assoc, List.append_assoc, hs, newline_of hm]
    dsimp only
    rw [hd, ih n rest (by simp at hn; omega) hr]

theorem mlLiteral_of {t raw : Str} (h : TomlRawLines t raw) :
    ∀ n rest, raw.length ≤ n → rest.head? ≠ some '\'' → mlLiteral n (raw ++ rest) = some (t, rest) := by
  have hpos : ∀ n : Nat, ∀ k, k + 1 ≤ n → ∃ m, n = m + 1 := fun n k h => ⟨n - 1, by omega⟩
  induction h with
  | close =>
    intro n rest hn hr
    obtain ⟨n, rfl⟩ := hpos n 0 (by simp at hn; omega)
    show mlLiteral (n + 1) ('\'' :: '\'' :: '\'' :: rest) = _
    rw [mlLiteral, quotes_some]; simp [closing0 hr]
  | close1 =>
    intro n rest hn hr
    obtain ⟨n, rfl⟩ := hpos n 0 (by simp at hn; omega)
    show mlLiteral (n + 1) ('\'' :: '\'' :: '\'' :: '\'' :: rest) = _
    rw [mlLiteral, quotes_some]; simp [closing1 hr]
  | close2 =>
    intro n rest hn hr
    obtain ⟨n, rfl⟩ := hpos n 0 (by simp at hn; omega)
    show mlLiteral (n + 1) ('\'' :: '\'' :: '\'' :: '\'' :: '\'' :: rest) = _
    rw [mlLiteral, quotes_some]; simp [closing2]
  | @char c t raw hc hq _ ih =>
    intro n rest hn hr
    obtain ⟨n, rfl⟩ := hpos n _ (by simpa using hn)
    obtain ⟨h1, h2, h3⟩ := tomlChar_facts hc
    rw [List.cons_append, mlLiteral, quotes_none (by simpa using hq)]
    dsimp only
    rw [newline_none (by simpa using h2) (by simpa using h3)]
    dsimp only
    rw [h1, ih n rest (by simp at hn; omega) hr]; rfl
  | @quote t raw ht hh ih =>
    intro n rest hn hr
    obtain ⟨n, rfl⟩ := hpos n _ (by simpa using hn)
    rw [List.cons_append, mlLiteral, quotes_none1 (by rw [head_append (rawLines_ne ht)]; exact hh)]
    dsimp only
    rw [newline_none (by simp) (by simp)]
    dsimp only
    rw [if_neg (by decide), ih n rest (by simp at hn; omega) hr]; rfl
  | @quote2 t raw ht hh ih =>
    intro n rest hn hr
    obtain ⟨n, rfl⟩ : ∃ m, n = m + 1 + 1 := ⟨n - 2, by simp at hn; omega⟩
    have hh' : (raw ++ rest).head? ≠ some '\'' := by rw [head_append (rawLines_ne ht)]; exact hh
    rw [List.cons_append, List.cons_append, mlLiteral, quotes_none2 hh']
    dsimp only
    rw [newline_none (by simp) (by simp)]
    dsimp only
    rw [if_neg (by decide), mlLiteral, quotes_none1 hh']
    dsimp only
    rw [newline_none (by simp) (by simp)]
    dsimp only
    rw [if_neg (by decide), ih n rest (by simp at hn; omega) hr]; rfl
  | @newline m t raw hm _ ih =>
    intro n rest hn hr
    have hl : 1 ≤ m.length := by rcases hm with rfl | rfl <;> simp
    obtain ⟨n, rfl⟩ := hpos n 0 (by simp at hn; omega)
    rw [List.append_assoc]
    have hq : quotes '\'' (m ++ (raw ++ rest)) = none := by
      obtain ⟨c, u, hcu, hc⟩ := newline_head hm (raw ++ rest)
      rw [hcu]; apply quotes_none
      rcases hc with rfl | rfl <;> simp
    conv => lhs; unfold mlLiteral
    simp only [hq]
    rw [newline_of hm]
    dsimp only
    rw [ih n rest (by simp at hn; omega) hr]
    have : (m ++ (raw ++ rest)).take ((m ++ (raw ++ rest)).length - (raw ++ rest).length) = m := by
      rw [show (m ++ (raw ++ rest)).length - (raw ++ rest).length = m.length from by simp]; simp
    rw [this]; rfl

theorem dropNewline_of {first raw : Str} (h : TomlFirst first raw) (hr : raw ≠ []) (rest : Str) :
    dropNewline (first ++ (raw ++ rest)) = raw ++ rest := by
  rcases h with h | ⟨rfl, h1, h2⟩
  · rw [dropNewline, newline_of h]; rfl
  · rw [dropNewline, List.nil_append, newline_none (by rw [head_append hr]; exact h1) (by rw [head_append hr]; exact h2)]; rfl

/-! ### Keys -/

theorem wordChar_facts {c : Char} (h : TomlWordChar c) : isBareKey c = true ∧ isBareValue c = true := by
  have : isBareKey c = true := by
    simp only [TomlWordChar, Char.le_def, UInt32.le_iff_toNat_le] at h
    simp only [isBareKey, Char.isAlphanum, Char.isAlpha, Char.isUpper, Char.isLower, Char.isDigit, Bool.or_eq_true,
      Bool.and_eq_true, decide_eq_true_eq, ge_iff_le, UInt32.le_iff_toNat_le, beq_iff_eq]
    rcases h with h | h | h | h | h
    · exact .inl (.inl (.inl (.inr h)))
    · exact .inl (.inl (.inl (.inl h)))
    · exact .inl (.inl (.inr h))
    · exact .inl (.inr h)
    · exact .inr h
  refine ⟨this, ?_⟩
  simp only [isBareKey] at this
  simp only [isBareValue, this, Bool.true_or]

/-- The first character of a key. -/
def KeyHead (c : Char) : Prop := c = '"' ∨ c = '\'' ∨ isBareKey c = true

theorem keyHead_facts {c : Char} (h : KeyHead c) :
    isBlank c = false ∧ c ≠ '[' ∧ c ≠ '}' ∧ c ≠ '\n' ∧ c ≠ '\r' ∧ c ≠ '#' := by
  rcases h with rfl | rfl | h
  · decide
  · decide
  · refine ⟨?_, ?_, ?_, ?_, ?_, ?_⟩
    · by_cases hb : isBlank c = true
      · have h' : c = ' ' ∨ c = '\t' := by simpa [isBlank] using hb
        rcases h' with rfl | rfl <;> exact absurd h (by decide)
      · simpa using hb
    all_goals (rintro rfl; exact absurd h (by decide))

theorem word_head {k t : Str} (h : TomlWord k t) : ∃ c t', t = c :: t' ∧ KeyHead c := by
  cases h with
  | bare hne hc =>
    obtain ⟨c, t', rfl⟩ := List.exists_cons_of_ne_nil hne
    exact ⟨c, t', rfl, .inr (.inr (wordChar_facts (hc c (by simp))).1)⟩
  | basic _ => exact ⟨_, _, rfl, .inl rfl⟩
  | literal _ => exact ⟨_, _, rfl, .inr (.inl rfl)⟩

theorem key_head {ks : List Str} {t : Str} (h : TomlKey ks t) : ∃ c t', t = c :: t' ∧ KeyHead c := by
  cases h with
  | one hw => exact word_head hw
  | dot hw _ _ _ => obtain ⟨c, t', rfl, hc⟩ := word_head hw; exact ⟨c, _, rfl, hc⟩

theorem takeWhile_all {p : Char → Bool} {t rest : Str} (ht : ∀ c ∈ t, p c = true) (hr : ∀ c, rest.head? = some c → p c = false) :
    (t ++ rest).takeWhile p = t ∧ (t ++ rest).dropWhile p = rest := by
  induction t with
  | nil =>
    cases rest with
    | nil => simp
    | cons c r => simp [hr c rfl]
  | cons c t ih =>
    obtain ⟨h1, h2⟩ := ih (fun c hc => ht c (List.mem_cons_of_mem _ hc))
    have hc := ht c (by simp)
    simp [hc, h1, h2]

theorem simpleKey_of {k t : Str} (h : TomlWord k t) {n : Nat} {rest : Str} (hn : t.length ≤ n)
    (hr : ∀ c, rest.head? = some c → isBareKey c = false) : simpleKey n (t ++ rest) = some (k, rest) := by
  cases h with
  | bare hne hc =>
    obtain ⟨h1, h2⟩ := takeWhile_all (p := isBareKey) (fun c hx => (wordChar_facts (hc c hx)).1) hr
    obtain ⟨c, t', rfl⟩ := List.exists_cons_of_ne_nil hne
    have hk := (wordChar_facts (hc c (by simp))).1
    unfold simpleKey
    split
    · rename_i h; injection h with h _; subst h; exact absurd hk (by decide)
    · rename_i h; injection h with h _; subst h; exact absurd hk (by decide)
    · rw [h1, h2]; rfl
  | @basic raw hb =>
    rw [List.cons_append, List.append_assoc]
    show basic n (raw ++ '"' :: rest) = _
    exact basic_of hb n rest (by simp at hn; omega)
  | literal hl =>
    rw [List.cons_append, List.append_assoc]
    exact literal_of hl rest

/-- The character behind a key. -/
theorem key_of {ks : List Str} {t : Str} (h : TomlKey ks t) : ∀ {n : Nat} {b : Str} {c : Char} {rest : Str}, t.length ≤ n →
    TomlBlank b → isBlank c = false → c ≠ '.' → isBareKey c = false → key n (t ++ (b ++ c :: rest)) = some (ks, c :: rest) := by
  have bhead : ∀ {b : Str} {c : Char} {rest : Str}, TomlBlank b → isBareKey c = false →
      ∀ d, (b ++ c :: rest).head? = some d → isBareKey d = false := by
    intro b c rest hb hc d hd
    cases b with
    | nil => simp at hd; exact hd ▸ hc
    | cons a b =>
      simp at hd; subst hd
      rcases hb a (by simp) with rfl | rfl <;> decide
  induction h with
  | @one k t hw =>
    intro n b c rest hn hb hc hd hk
    obtain ⟨a, t', rfl, _⟩ := word_head hw
    obtain ⟨n, rfl⟩ : ∃ m, n = m + 1 := ⟨n - 1, by simp at hn; omega⟩
    rw [key, simpleKey_of hw hn (bhead hb hk), Option.bind_some]
    dsimp only
    rw [skipBlank_append hb (by intro d h; simp at h; exact h ▸ hc)]
    split
    · rename_i h; injection h with h _; exact absurd h hd
    · rfl
  | @dot k t b1 b2 u ks hw hb1 hb2 hu ih =>
    intro n b c rest hn hb hc hd hk
    have ht : 1 ≤ t.length := by obtain ⟨a, t', rfl, _⟩ := word_head hw; simp
    obtain ⟨n, rfl⟩ : ∃ m, n = m + 1 := ⟨n - 1, by simp at hn; omega⟩
    rw [List.append_assoc, List.append_assoc, List.cons_append, key,
      simpleKey_of hw (by simp at hn ⊢; omega) (bhead hb1 (by decide)), Option.bind_some]
    dsimp only
    rw [skipBlank_append hb1 (by intro d h; simp at h; subst h; decide)]
    show (key n (skipBlank ((b2 ++ u) ++ (b ++ c :: rest)))).map _ = _
    rw [List.append_assoc, skipBlank_append hb2 (by
      obtain ⟨d, u', rfl, hh⟩ := key_head hu
      intro e he; simp at he; exact he ▸ (keyHead_facts hh).1)]
    rw [ih (by simp at hn; omega) hb hc hd hk]; rfl

end Osv.TomlText
