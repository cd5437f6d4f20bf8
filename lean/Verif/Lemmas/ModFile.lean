import Verif.Lemmas.Semver
import Verif.Lemmas.JsonText
import Verif.Lemmas.RegexMatch
/-! # Words and directives of go.mod files -/
namespace Osv.ModFile
open Str Spec Spec.ModText

theorem hexValue_iff {c : Char} {n : Nat} : hexValue c = some n ↔ HexDigit c n := by
  have h1 : hexValue c = if Json.isHex c = true then some (Json.hexVal c) else none := by
    unfold hexValue Json.isHex Json.hexVal
    by_cases a : '0' ≤ c ∧ c ≤ '9'
    · simp [a]
    · by_cases b : 'a' ≤ c ∧ c ≤ 'f'
      · simp [a, b]
      · by_cases d : 'A' ≤ c ∧ c ≤ 'F'
        · simp [a, b, d]
        · simp [a, b, d]
  rw [h1]
  constructor
  · intro h
    split at h
    · rename_i hx
      injection h with h
      subst h
      exact JText.hexDigit_of hx
    · simp at h
  · intro h
    obtain ⟨h1, h2, _⟩ := JText.hexDigit_facts h
    rw [if_pos h1, h2]

theorem digitsValue_snoc (base : Nat) (s : Str) (c : Char) : ∀ acc, digitsValue base acc (s ++ [c]) =
    (digitsValue base acc s).bind fun m => (hexValue c).bind fun n => if n < base then some (m * base + n) else none := by
  induction s with
  | nil =>
    intro acc
    simp only [List.nil_append, digitsValue, Option.bind]
    cases hexValue c <;> simp
  | cons d s ih =>
    intro acc
    simp only [List.cons_append, digitsValue]
    cases hexValue d with
    | none => simp
    | some n =>
      dsimp only
      split
      · exact ih _
      · simp

theorem numeral_iff {base : Nat} {s : Str} {n : Nat} : digitsValue base 0 s = some n ↔ Numeral base s n := by
  constructor
  · have : ∀ k (s : Str) n, s.length = k → digitsValue base 0 s = some n → Numeral base s n := by
      intro k
      induction k with
      | zero =>
        intro s n hl h
        obtain rfl := List.length_eq_zero_iff.1 hl
        simp only [digitsValue, Option.some.injEq] at h
        subst h
        exact .nil
      | succ k ih =>
        intro s n hl h
        have hne : s ≠ [] := by rintro rfl; simp at hl
        obtain ⟨x, c, rfl⟩ : ∃ x c, s = x ++ [c] := ⟨s.dropLast, s.getLast hne, (List.dropLast_concat_getLast hne).symm⟩
        rw [digitsValue_snoc] at h
        cases hx : digitsValue base 0 x with
        | none => rw [hx] at h; simp at h
        | some m =>
          rw [hx] at h
          cases hc : hexValue c with
          | none => rw [hc] at h; simp at h
          | some d =>
            rw [hc] at h
            simp only [Option.bind_some] at h
            split at h
            · rename_i hd
              injection h with h
              subst h
              rw [Nat.mul_comm]
              exact .snoc (ih x m (by simpa using hl) hx) (hexValue_iff.1 hc) hd
            · simp at h
    exact this _ s n rfl
  · intro h
    induction h with
    | nil => rfl
    | snoc _ hd hlt ih =>
      rw [digitsValue_snoc, ih, hexValue_iff.2 hd]
      simp [hlt, Nat.mul_comm]

/-- An escape without the backslash. -/
inductive Esc : Str → Char → Prop
  | simple {e c : Char} : (e, c) ∈ simpleEscapes → Esc [e] c
  | hex {ds : Str} {n : Nat} {c : Char} : ds.length = 2 → Numeral 16 ds n → ByteChar n c → Esc ('x' :: ds) c
  | short {ds : Str} {n : Nat} {c : Char} : ds.length = 4 → Numeral 16 ds n → c.toNat = n → Esc ('u' :: ds) c
  | long {ds : Str} {n : Nat} {c : Char} : ds.length = 8 → Numeral 16 ds n → c.toNat = n → Esc ('U' :: ds) c
  | octal {ds : Str} {n : Nat} {c : Char} : ds.length = 3 → Numeral 8 ds n → ByteChar n c → Esc ds c

theorem escapes_of_esc {p t s : Str} {c : Char} (h : Esc p c) (ht : Escapes t s) : Escapes ('\\' :: (p ++ t)) (c :: s) := by
  cases h with
  | simple h => exact .simple h ht
  | hex h1 h2 h3 => exact .hex h1 h2 h3 ht
  | short h1 h2 h3 => exact .short h1 h2 h3 ht
  | long h1 h2 h3 => exact .long h1 h2 h3 ht
  | octal h1 h2 h3 => exact .octal h1 h2 h3 ht

theorem esc_of_escapes {x s' : Str} (h : Escapes ('\\' :: x) s') : ∃ p c t s, x = p ++ t ∧ s' = c :: s ∧ Esc p c ∧ Escapes t s := by
  generalize hy : '\\' :: x = y at h
  cases h with
  | nil => simp at hy
  | plain h1 h2 => injection hy with hy _; exact absurd hy.symm h2
  | simple h ht => injection hy with _ hy; exact ⟨_, _, _, _, hy, rfl, .simple h, ht⟩
  | hex h1 h2 h3 ht => injection hy with _ hy; exact ⟨_, _, _, _, hy, rfl, .hex h1 h2 h3, ht⟩
  | short h1 h2 h3 ht => injection hy with _ hy; exact ⟨_, _, _, _, hy, rfl, .short h1 h2 h3, ht⟩
  | long h1 h2 h3 ht => injection hy with _ hy; exact ⟨_, _, _, _, hy, rfl, .long h1 h2 h3, ht⟩
  | octal h1 h2 h3 ht => injection hy with _ hy; exact ⟨_, _, _, _, hy, rfl, .octal h1 h2 h3, ht⟩

theorem toNat_ofNat {n : Nat} (h : n.isValidChar) : (Char.ofNat n).toNat = n := by
  unfold Char.ofNat
  rw [dif_pos h]
  rfl

theorem ofNat_of_toNat {c : Char} {n : Nat} (h : c.toNat = n) : n.isValidChar ∧ Char.ofNat n = c := by
  subst h
  exact ⟨c.valid, Char.ofNat_toNat c⟩

theorem valid_small {n : Nat} (h : n < 128) : n.isValidChar := .inl (by omega)

theorem char_eq {c d : Char} (h : c.toNat = d.toNat) : c = d := by
  rw [← Char.ofNat_toNat c, h, Char.ofNat_toNat]

theorem take_split {α : Type} {l : List α} {k : Nat} (h : ¬ l.length < k) : l = l.take k ++ l.drop k ∧ (l.take k).length = k :=
  ⟨(List.take_append_drop k l).symm, by simp; omega⟩

theorem lookup_mem {c d : Char} : ∀ {l : List (Char × Char)}, l.lookup c = some d → (c, d) ∈ l := by
  intro l
  induction l with
  | nil => simp
  | cons x l ih =>
    obtain ⟨a, b⟩ := x
    intro h
    by_cases hc : c == a
    · have e : c = a := by simpa using hc
      subst e
      simp only [List.lookup_cons, beq_self_eq_true] at h
      injection h with h
      subst h
      simp
    · have hc : (c == a) = false := by simpa using hc
      simp only [List.lookup_cons, hc] at h
      exact List.mem_cons_of_mem _ (ih h)

theorem simple_iff {c d : Char} : letterEscapes.lookup c = some d ↔ (c, d) ∈ simpleEscapes := by
  constructor
  · exact lookup_mem
  · intro h
    have : ∀ x ∈ simpleEscapes, letterEscapes.lookup x.1 = some x.2 := by decide
    exact this _ h

theorem numeral_lt {base : Nat} {ds : Str} {n : Nat} (h : Numeral base ds n) : n < base ^ ds.length := by
  induction h with
  | nil => simp
  | @snoc s m n c _ _ hlt ih =>
    simp only [List.length_append, List.length_cons, List.length_nil, Nat.pow_succ, Nat.zero_add, Nat.pow_zero, Nat.one_mul]
    have h1 : m + 1 ≤ base ^ s.length := ih
    have h2 : base * (m + 1) ≤ base * base ^ s.length := Nat.mul_le_mul_left _ h1
    rw [Nat.mul_comm (base ^ s.length) base]
    rw [Nat.mul_add] at h2
    omega

theorem byteChar_iff {n : Nat} {c : Char} : byteChar n = some c ↔ ByteChar n c := by
  unfold byteChar ByteChar
  by_cases h1 : n < 128
  · rw [if_pos h1]
    constructor
    · intro h; injection h with h; exact .inl ⟨h1, by rw [← h, toNat_ofNat (valid_small h1)]⟩
    · rintro (⟨_, h⟩ | ⟨h, _⟩)
      · rw [(ofNat_of_toNat h).2]
      · omega
  · rw [if_neg h1]
    by_cases h2 : n < 256
    · rw [if_pos h2]
      constructor
      · intro h; injection h with h; exact .inr ⟨by omega, h2, by rw [← h]; rfl⟩
      · rintro (⟨h, _⟩ | ⟨_, _, h⟩)
        · omega
        · congr 1; exact (char_eq (by rw [h]; rfl)).symm
    · rw [if_neg h2]
      constructor
      · simp
      · rintro (⟨h, _⟩ | ⟨_, h, _⟩) <;> omega

theorem runeChar_iff {n : Nat} {c : Char} : runeChar n = some c ↔ c.toNat = n := by
  unfold runeChar
  constructor
  · intro h
    split at h
    · rename_i hv; injection h with h; rw [← h, toNat_ofNat hv]
    · simp at h
  · intro h
    obtain ⟨h1, h2⟩ := ofNat_of_toNat h
    rw [if_pos h1, h2]

theorem codeEscape_iff {base k : Nat} {rune : Nat → Option Char} {s left : Str} {d : Char} :
    codeEscape base k rune s = some (d, left) ↔ ∃ ds n, s = ds ++ left ∧ ds.length = k ∧ Numeral base ds n ∧ rune n = some d := by
  unfold codeEscape
  constructor
  · intro h
    split at h
    · simp at h
    · rename_i hl
      obtain ⟨e, hlen⟩ := take_split hl
      cases hv : digitsValue base 0 (s.take k) with
      | none => rw [hv] at h; simp at h
      | some n =>
        rw [hv] at h
        dsimp only at h
        cases hr : rune n with
        | none => rw [hr] at h; simp at h
        | some c =>
          rw [hr] at h
          simp only [Option.map_some, Option.some.injEq, Prod.mk.injEq] at h
          obtain ⟨rfl, rfl⟩ := h
          exact ⟨_, n, e, hlen, numeral_iff.1 hv, hr⟩
  · rintro ⟨ds, n, rfl, rfl, hn, hr⟩
    rw [if_neg (by simp)]
    simp only [List.take_left, List.drop_left]
    rw [numeral_iff.2 hn]
    dsimp only
    rw [hr]
    rfl

theorem octal_head {base : Nat} {c : Char} {t : Str} {n : Nat} (h : Numeral base (c :: t) n) : ∃ m, HexDigit c m ∧ m < base := by
  have : digitsValue base 0 (c :: t) = some n := numeral_iff.2 h
  unfold digitsValue at this
  split at this
  · simp at this
  · rename_i m hm
    split at this
    · rename_i hlt; exact ⟨m, hexValue_iff.1 hm, hlt⟩
    · simp at this

theorem octal_not {c : Char} {m : Nat} (h : HexDigit c m) (hm : m < 8) : letterEscapes.lookup c = none ∧ c ≠ 'x' ∧ c ≠ 'u' ∧ c ≠ 'U' := by
  have key : ∀ m : Fin 8, (∀ c ∈ g!"0123456789abcdef"[m.val]?, letterEscapes.lookup c = none ∧ c ≠ 'x' ∧ c ≠ 'u' ∧ c ≠ 'U') ∧
      (∀ c ∈ g!"0123456789ABCDEF"[m.val]?, letterEscapes.lookup c = none ∧ c ≠ 'x' ∧ c ≠ 'u' ∧ c ≠ 'U') := by decide +kernel
  rcases h with h | h
  · exact (key ⟨m, hm⟩).1 c h
  · exact (key ⟨m, hm⟩).2 c h

theorem escape_iff {r left : Str} {d : Char} : escape r = some (d, left) ↔ ∃ p, r = p ++ left ∧ Esc p d := by
  constructor
  · intro h
    cases r with
    | nil => simp [escape] at h
    | cons c rest =>
      unfold escape at h
      cases hl : letterEscapes.lookup c with
      | some d' =>
        simp only [hl, Option.some.injEq, Prod.mk.injEq] at h
        obtain ⟨rfl, rfl⟩ := h
        exact ⟨[c], rfl, .simple (simple_iff.1 hl)⟩
      | none =>
        simp only [hl] at h
        split at h
        · rename_i e; subst e
          obtain ⟨ds, n, e, h1, h2, h3⟩ := codeEscape_iff.1 h
          exact ⟨'x' :: ds, by simp [e], .hex h1 h2 (byteChar_iff.1 h3)⟩
        split at h
        · rename_i e; subst e
          obtain ⟨ds, n, e, h1, h2, h3⟩ := codeEscape_iff.1 h
          exact ⟨'u' :: ds, by simp [e], .short h1 h2 (runeChar_iff.1 h3)⟩
        split at h
        · rename_i e; subst e
          obtain ⟨ds, n, e, h1, h2, h3⟩ := codeEscape_iff.1 h
          exact ⟨'U' :: ds, by simp [e], .long h1 h2 (runeChar_iff.1 h3)⟩
        · obtain ⟨ds, n, e, h1, h2, h3⟩ := codeEscape_iff.1 h
          exact ⟨ds, e, .octal h1 h2 (byteChar_iff.1 h3)⟩
  · rintro ⟨p, rfl, h⟩
    cases h with
    | simple h =>
      unfold escape
      simp only [List.cons_append, List.nil_append, simple_iff.2 h]
    | @hex ds n _ h1 h2 h3 =>
      have : letterEscapes.lookup 'x' = none := rfl
      simp only [escape, List.cons_append, this, if_true]
      exact codeEscape_iff.2 ⟨ds, n, rfl, h1, h2, byteChar_iff.2 h3⟩
    | @short ds n _ h1 h2 h3 =>
      have : letterEscapes.lookup 'u' = none := rfl
      simp only [escape, List.cons_append, this, if_true]
      rw [if_neg (by decide)]
      exact codeEscape_iff.2 ⟨ds, n, rfl, h1, h2, runeChar_iff.2 h3⟩
    | @long ds n _ h1 h2 h3 =>
      have : letterEscapes.lookup 'U' = none := rfl
      simp only [escape, List.cons_append, this, if_true]
      rw [if_neg (by decide), if_neg (by decide)]
      exact codeEscape_iff.2 ⟨ds, n, rfl, h1, h2, runeChar_iff.2 h3⟩
    | @octal _ n _ h1 h2 h3 =>
      cases p with
      | nil => simp at h1
      | cons c p =>
        obtain ⟨m, hm1, hm2⟩ := octal_head h2
        obtain ⟨a1, a2, a3, a4⟩ := octal_not hm1 hm2
        simp only [escape, List.cons_append, a1]
        rw [if_neg a2, if_neg a3, if_neg a4]
        exact codeEscape_iff.2 ⟨c :: p, n, rfl, h1, h2, byteChar_iff.2 h3⟩

theorem esc_ne {p : Str} {c : Char} (h : Esc p c) : p ≠ [] := by
  cases h with
  | octal h => rintro rfl; simp at h
  | _ => simp

theorem unquoteFrom_iff : ∀ (fuel : Nat) (r s : Str), r.length < fuel →
    (unquoteFrom fuel r = some s ↔ ∃ t, r = t ++ ['"'] ∧ Escapes t s) := by
  intro fuel
  induction fuel with
  | zero => intro r s h; omega
  | succ fuel ih =>
    intro r s hl
    cases r with
    | nil => simp [unquoteFrom]
    | cons c rest =>
      unfold unquoteFrom
      by_cases h1 : c = '"'
      · subst h1
        rw [if_pos rfl]
        constructor
        · intro h
          split at h
          · rename_i e; subst e; injection h with h; subst h; exact ⟨[], rfl, .nil⟩
          · simp at h
        · rintro ⟨t, e, ht⟩
          cases ht with
          | nil => injection e with _ e; subst e; rfl
          | plain h1 => injection e with e _; exact absurd e.symm h1
          | simple => injection e with e _; exact absurd e (by decide)
          | hex => injection e with e _; exact absurd e (by decide)
          | short => injection e with e _; exact absurd e (by decide)
          | long => injection e with e _; exact absurd e (by decide)
          | octal => injection e with e _; exact absurd e (by decide)
      · rw [if_neg h1]
        by_cases h2 : c = '\n'
        · subst h2
          rw [if_pos rfl]
          constructor
          · simp
          · rintro ⟨t, e, ht⟩
            cases ht with
            | nil => injection e with e _; exact absurd e (by decide)
            | plain _ _ h1 => injection e with e _; exact absurd e.symm h1
            | simple => injection e with e _; exact absurd e (by decide)
            | hex => injection e with e _; exact absurd e (by decide)
            | short => injection e with e _; exact absurd e (by decide)
            | long => injection e with e _; exact absurd e (by decide)
            | octal => injection e with e _; exact absurd e (by decide)
        · rw [if_neg h2]
          by_cases h3 : c = '\\'
          · subst h3
            rw [if_pos rfl]
            constructor
            · intro h
              cases he : escape rest with
              | none => rw [he] at h; simp at h
              | some x =>
                obtain ⟨d, left⟩ := x
                rw [he] at h
                dsimp only at h
                obtain ⟨p, e, hp⟩ := escape_iff.1 he
                cases hu : unquoteFrom fuel left with
                | none => rw [hu] at h; simp at h
                | some s' =>
                  rw [hu] at h
                  simp only [Option.map_some, Option.some.injEq] at h
                  obtain ⟨t, e', ht⟩ := (ih left s' (by
                    rw [e] at hl
                    simp only [List.length_cons, List.length_append] at hl
                    omega)).1 hu
                  refine ⟨'\\' :: (p ++ t), by rw [e, e']; simp, ?_⟩
                  rw [← h]
                  exact escapes_of_esc hp ht
            · rintro ⟨t, e, ht⟩
              cases t with
              | nil => injection e with e _; exact absurd e (by decide)
              | cons b x =>
                injection e with e1 e2
                subst e1
                obtain ⟨p, c, t, s', rfl, rfl, hp, ht'⟩ := esc_of_escapes ht
                have e2 : rest = p ++ (t ++ ['"']) := by rw [← List.append_assoc]; exact e2
                rw [(escape_iff (r := rest) (left := t ++ ['"']) (d := c)).2 ⟨p, e2, hp⟩]
                dsimp only
                rw [(ih (t ++ ['"']) s' (by
                  rw [e2] at hl
                  simp only [List.length_cons, List.length_append, List.length_nil] at hl ⊢
                  omega)).2 ⟨t, rfl, ht'⟩]
                rfl
          · rw [if_neg h3]
            constructor
            · intro h
              cases hu : unquoteFrom fuel rest with
              | none => rw [hu] at h; simp at h
              | some s' =>
                rw [hu] at h
                simp only [Option.map_some, Option.some.injEq] at h
                obtain ⟨t, e', ht⟩ := (ih rest s' (by simp at hl; omega)).1 hu
                exact ⟨c :: t, by rw [e']; simp, by rw [← h]; exact .plain h1 h3 h2 ht⟩
            · rintro ⟨t, e, ht⟩
              cases ht with
              | nil => injection e with e _; exact absurd e h1
              | plain a b d ht =>
                injection e with e1 e2
                subst e1
                rw [(ih rest _ (by simp at hl; omega)).2 ⟨_, e2, ht⟩]
                rfl
              | simple => injection e with e _; exact absurd e h3
              | hex => injection e with e _; exact absurd e h3
              | short => injection e with e _; exact absurd e h3
              | long => injection e with e _; exact absurd e h3
              | octal => injection e with e _; exact absurd e h3

theorem string_iff {w s : Str} : string w = some s ↔ Value w s := by
  unfold string
  split
  · rename_i rest
    rw [unquoteFrom_iff _ _ _ (Nat.lt_succ_self _)]
    constructor
    · rintro ⟨t, rfl, h⟩
      exact .quoted h
    · intro h
      generalize hx : '"' :: rest = x at h
      cases h with
      | quoted h => injection hx with _ hx; exact ⟨_, hx, h⟩
      | bare h => subst hx; exact absurd rfl (h '"' (by simp)).1
  · rename_i hq
    constructor
    · intro h
      split at h
      · simp at h
      · rename_i hany
        injection h with h
        subst h
        refine .bare ?_
        intro c hc
        have : ¬ ((c == '"' || c == '\'' || c == '`') = true) := fun hn => hany (List.any_eq_true.2 ⟨c, hc, hn⟩)
        simpa [not_or, and_assoc] using this
    · intro h
      cases h with
      | quoted h => exact absurd rfl (hq _)
      | bare h =>
        rw [if_neg]
        intro hany
        obtain ⟨c, hc, hx⟩ := List.any_eq_true.1 hany
        have := h c hc
        simp [this.1, this.2.1, this.2.2] at hx

theorem version_iff {w c : Str} : version w = some c ↔ ∃ t m, Value w t ∧ Canonical t m c := by
  unfold version
  cases hs : string w with
  | none =>
    simp only [Option.bind_none]
    constructor
    · simp
    · rintro ⟨t, m, h, _⟩
      rw [string_iff.2 h] at hs
      simp at hs
  | some t =>
    simp only [Option.bind_some]
    have hv := string_iff.1 hs
    constructor
    · intro h
      split at h
      · simp at h
      · rename_i hne
        injection h with h
        obtain ⟨m, hm⟩ := Semver.canonical_of_moduleVersion rfl hne
        rw [h] at hm
        exact ⟨t, m, hv, hm⟩
    · rintro ⟨t', m, h, hc⟩
      have : t = t' := by
        have := string_iff.2 h
        rw [hs] at this
        injection this
      subst this
      obtain ⟨h1, h2, _⟩ := Semver.moduleVersion_canonical hc
      rw [h1, if_neg h2]

theorem requirement_iff {p v : Str} {m : GoModule} : requirement p v = some m ↔ Module p v m := by
  unfold requirement
  constructor
  · intro h
    cases h1 : string p with
    | none => rw [h1] at h; simp at h
    | some path =>
      cases h2 : version v with
      | none => rw [h1, h2] at h; simp at h
      | some ver =>
        cases h3 : Semver.pathMajor path with
        | none => rw [h1, h2] at h; simp [h3] at h
        | some s =>
          rw [h1, h2] at h
          simp only [bind, Option.bind, h3] at h
          split at h
          · rename_i hb
            injection h with h
            subst h
            obtain ⟨t, mj, hv, hc⟩ := version_iff.1 h2
            obtain ⟨pm, hpm, hs⟩ := Semver.of_pathMajor h3
            exact .mk (string_iff.1 h1) hv hc hpm ((Semver.checkPathMajor_iff hc hs).1 hb)
          · simp at h
  · rintro ⟨h1, h2, h3, h4, h5⟩
    obtain ⟨s, hs1, hs2⟩ := Semver.pathMajor_of h4
    rw [string_iff.2 h1, version_iff.2 ⟨_, _, h2, h3⟩]
    simp only [bind, Option.bind, hs1]
    rw [if_pos ((Semver.checkPathMajor_iff h3 hs2).2 h5)]

theorem isDirectoryPath_iff {s : Str} : isDirectoryPath s = true ↔ DirPath s := by
  unfold isDirectoryPath
  simp only [Bool.or_eq_true, beq_iff_eq, hasPrefix_iff]
  constructor
  · rintro ((((((((h | ⟨t, h⟩) | ⟨t, h⟩) | ⟨t, h⟩) | ⟨t, h⟩) | h) | ⟨t, h⟩) | ⟨t, h⟩) | h)
    · subst h; exact .dot
    · subst h; exact .here (.inl rfl)
    · subst h; exact .root (.inl rfl)
    · subst h; exact .here (.inr rfl)
    · subst h; exact .root (.inr rfl)
    · subst h; exact .dotdot
    · subst h; exact .up (.inl rfl)
    · subst h; exact .up (.inr rfl)
    · split at h
      · simp only [Bool.or_eq_true, Bool.and_eq_true, decide_eq_true_eq] at h
        exact .drive h
      · simp at h
  · intro h
    cases h with
    | dot => simp
    | dotdot => simp
    | @here t c h =>
      rcases h with rfl | rfl
      · exact .inl (.inl (.inl (.inl (.inl (.inl (.inl (.inr ⟨t, rfl⟩)))))))
      · exact .inl (.inl (.inl (.inl (.inl (.inr ⟨t, rfl⟩)))))
    | @up t c h =>
      rcases h with rfl | rfl
      · exact .inl (.inl (.inr ⟨t, rfl⟩))
      · exact .inl (.inr ⟨t, rfl⟩)
    | @root t c h =>
      rcases h with rfl | rfl
      · exact .inl (.inl (.inl (.inl (.inl (.inl (.inr ⟨t, rfl⟩))))))
      · exact .inl (.inl (.inl (.inl (.inr ⟨t, rfl⟩))))
    | @drive t c h => exact .inr (by simpa using h)

theorem contains_char (s : Str) (c : Char) : contains s [c] = true ↔ c ∈ s := by
  rw [contains_iff]
  constructor
  · rintro ⟨a, b, rfl⟩; simp
  · intro h
    obtain ⟨a, b, e, _⟩ := List.eq_append_cons_of_mem h
    exact ⟨a, b, by simp [e]⟩

theorem replacement_iff {args : List Str} {m : GoModule} : replacement args = some m ↔ Replacement args m := by
  constructor
  · intro h
    unfold replacement at h
    split at h
    · rename_i d
      cases h1 : string d with
      | none => rw [h1] at h; simp at h
      | some ns =>
        rw [h1] at h
        simp only [bind, Option.bind] at h
        split at h
        · rename_i hb
          injection h with h
          subst h
          simp only [Bool.and_eq_true, Bool.not_eq_true', ] at hb
          refine .dir (string_iff.1 h1) (isDirectoryPath_iff.1 hb.1) ?_
          rw [← contains_char, hb.2]
          simp
        · simp at h
    · rename_i p v
      cases h1 : string p with
      | none => rw [h1] at h; simp at h
      | some ns =>
        cases h2 : version v with
        | none => rw [h1, h2] at h; simp at h
        | some nv =>
          rw [h1, h2] at h
          simp only [bind, Option.bind] at h
          split at h
          · simp at h
          · rename_i hd
            injection h with h
            subst h
            obtain ⟨t, mj, hv, hc⟩ := version_iff.1 h2
            exact .mod (string_iff.1 h1) hv hc (fun hn => hd (isDirectoryPath_iff.2 hn))
    · simp at h
  · intro h
    cases h with
    | dir h1 h2 h3 =>
      unfold replacement
      dsimp only
      rw [string_iff.2 h1]
      simp only [bind, Option.bind]
      rw [if_pos]
      rw [isDirectoryPath_iff.2 h2, Bool.true_and, Bool.not_eq_true', Bool.eq_false_iff]
      intro hc
      exact h3 ((contains_char _ _).1 hc)
    | mod h1 h2 h3 h4 =>
      unfold replacement
      dsimp only
      rw [string_iff.2 h1, version_iff.2 ⟨_, _, h2, h3⟩]
      simp only [bind, Option.bind]
      rw [if_neg fun hn => h4 (isDirectoryPath_iff.1 hn)]

theorem not_version_arrow : version g!"=>" = none := by decide +kernel

/-- What a `replace` directive says. -/
inductive Replaces : List Str → GoReplace → Prop
  | all {p path : Str} {rest : List Str} {pm : Major} {m : GoModule} : Value p path → PathMajor path pm → Replacement rest m →
      Replaces (p :: g!"=>" :: rest) ⟨⟨path, []⟩, m⟩
  | one {p v : Str} {rest : List Str} {old m : GoModule} : Module p v old → Replacement rest m →
      Replaces (p :: v :: g!"=>" :: rest) ⟨old, m⟩

theorem replace_iff {args : List Str} {r : GoReplace} : replace args = some r ↔ Replaces args r := by
  constructor
  · intro h
    unfold replace at h
    split at h
    · rename_i path arrow rest
      split at h
      · rename_i ha
        subst ha
        cases h1 : string path with
        | none => rw [h1] at h; simp at h
        | some p =>
          cases h2 : Semver.pathMajor p with
          | none => rw [h1] at h; simp [h2] at h
          | some s =>
            cases h3 : replacement rest with
            | none => rw [h1] at h; simp [h2, h3] at h
            | some new =>
              rw [h1] at h
              simp only [bind, Option.bind, h2, h3, Option.some.injEq] at h
              subst h
              obtain ⟨pm, hpm, _⟩ := Semver.of_pathMajor h2
              exact .all (string_iff.1 h1) hpm (replacement_iff.1 h3)
      · split at h
        · rename_i arrow' rest
          split at h
          · rename_i ha
            subst ha
            cases h1 : string path with
            | none => rw [h1] at h; simp at h
            | some p =>
              cases h2 : Semver.pathMajor p with
              | none => rw [h1] at h; simp [h2] at h
              | some s =>
                cases h3 : version arrow with
                | none => rw [h1] at h; simp [h2, h3] at h
                | some v =>
                  rw [h1] at h
                  simp only [bind, Option.bind, h2, h3] at h
                  split at h
                  · rename_i hb
                    cases h4 : replacement rest with
                    | none => rw [h4] at h; simp at h
                    | some new =>
                      rw [h4] at h
                      simp only [Option.some.injEq] at h
                      subst h
                      obtain ⟨t, mj, hv, hc⟩ := version_iff.1 h3
                      obtain ⟨pm, hpm, hs⟩ := Semver.of_pathMajor h2
                      exact .one (.mk (string_iff.1 h1) hv hc hpm ((Semver.checkPathMajor_iff hc hs).1 hb)) (replacement_iff.1 h4)
                  · simp at h
          · simp at h
        · simp at h
    · simp at h
  · intro h
    cases h with
    | @all p path rest pm m h1 h2 h3 =>
      obtain ⟨s, hs, _⟩ := Semver.pathMajor_of h2
      unfold replace
      dsimp only
      rw [if_pos rfl, string_iff.2 h1]
      simp only [bind, Option.bind, hs, replacement_iff.2 h3]
    | @one p v rest old m h1 h2 =>
      obtain ⟨h3, h4, h5, h6, h7⟩ := h1
      obtain ⟨s, hs1, hs2⟩ := Semver.pathMajor_of h6
      have hv := version_iff.2 ⟨_, _, h4, h5⟩
      have hne : v ≠ g!"=>" := by
        rintro rfl
        rw [not_version_arrow] at hv
        simp at hv
      unfold replace
      dsimp only
      rw [if_neg hne, if_pos rfl, string_iff.2 h3]
      simp only [bind, Option.bind, hs1, hv]
      rw [if_pos ((Semver.checkPathMajor_iff h5 hs2).2 h7), replacement_iff.2 h2]

/-! ## Versions of Go -/

section
open Re

/-- The expression for decimal numbers. -/
def reNum : Re := .alt (.ch '0') (.cat [.cls fun c => '1' ≤ c && c ≤ '9', .star true (.cls isDigit)])

theorem digit_cases {c : Char} : Digit c ↔ c = '0' ∨ ('1' ≤ c ∧ c ≤ '9') := by
  unfold Digit
  have hle : ∀ a b : Char, a ≤ b ↔ a.toNat ≤ b.toNat := fun a b => Iff.rfl
  have heq : c = '0' ↔ c.toNat = 48 := ⟨fun h => by rw [h]; rfl, fun h => char_eq h⟩
  rw [heq]
  simp only [hle]
  have a : '0'.toNat = 48 := rfl
  have b : '9'.toNat = 57 := rfl
  have d : '1'.toNat = 49 := rfl
  omega

theorem not_zero {c : Char} (h : '1' ≤ c ∧ c ≤ '9') : c ≠ '0' := by rintro rfl; exact absurd h (by decide)

theorem matches_positive {bol : Bool} {k k' : Caps} {x rest : Str} :
    Matches (.cat [.cls fun c => '1' ≤ c && c ≤ '9', .star true (.cls isDigit)]) bol k x rest k' ↔ (Number x ∧ x ≠ g!"0") ∧ k' = k := by
  simp only [cat, matches_seq, matches_cls, matches_star_cls]
  constructor
  · rintro ⟨y, z, k₁, rfl, ⟨c, rfl, hc, rfl⟩, hz, rfl⟩
    have hc : '1' ≤ c ∧ c ≤ '9' := by simpa using hc
    refine ⟨⟨⟨by simp, ?_, ?_⟩, ?_⟩, rfl⟩
    · intro d hd
      rcases List.mem_cons.1 hd with rfl | hd
      · exact digit_cases.2 (.inr hc)
      · exact Semver.digit_iff.1 (hz d hd)
    · intro r e
      injection e with e _
      exact absurd e (not_zero hc)
    · intro e
      injection e with e _
      exact absurd e (not_zero hc)
  · rintro ⟨⟨⟨hne, hd, hz⟩, h0⟩, rfl⟩
    cases x with
    | nil => exact absurd rfl hne
    | cons c x =>
      refine ⟨[c], x, k', rfl, ⟨c, rfl, ?_, rfl⟩, fun d hd' => Semver.digit_iff.2 (hd d (by simp [hd'])), rfl⟩
      rcases digit_cases.1 (hd c (by simp)) with h | h
      · subst h
        have := hz x rfl
        subst this
        exact absurd rfl h0
      · simpa using h

theorem number_zero : Number g!"0" :=
  ⟨by simp, by simp [Digit], by intro r e; injection e with _ e; exact e.symm⟩

theorem matches_num {bol : Bool} {k k' : Caps} {x rest : Str} : Matches reNum bol k x rest k' ↔ Number x ∧ k' = k := by
  unfold reNum
  rw [matches_alt, matches_ch, matches_positive]
  constructor
  · rintro (⟨rfl, h⟩ | ⟨⟨h, _⟩, e⟩)
    · exact ⟨number_zero, h⟩
    · exact ⟨h, e⟩
  · rintro ⟨h, e⟩
    by_cases h0 : x = g!"0"
    · exact .inl ⟨h0, e⟩
    · exact .inr ⟨⟨h, h0⟩, e⟩

/-- The expression for positive numbers. -/
def rePositive : Re := .cat [.cls fun c => '1' ≤ c && c ≤ '9', .star true (.cls isDigit)]

/-- The expression for the third number. -/
def rePatch : Re := .cat [.ch '.', .cap 4 reNum]

/-- The expression for the end. -/
def reSuffix : Re := .cat [.plus (.cls fun c => 'a' ≤ c && c ≤ 'z'), .plus (.cls isDigit)]

theorem matches_patch {bol : Bool} {k k' : Caps} {x rest : Str} :
    (∃ k', Matches rePatch bol k x rest k') ↔ ∃ q, x = '.' :: q ∧ Number q := by
  unfold rePatch
  simp only [cat, matches_seq, matches_ch, matches_cap, matches_num]
  constructor
  · rintro ⟨_, _, z, _, rfl, ⟨rfl, _⟩, _, ⟨h, _⟩, _⟩
    exact ⟨z, rfl, h⟩
  · rintro ⟨q, rfl, h⟩
    exact ⟨_, ['.'], q, _, rfl, ⟨rfl, rfl⟩, _, ⟨h, rfl⟩, rfl⟩

theorem matches_suffix {bol : Bool} {k k' : Caps} {x rest : Str} : (∃ k', Matches reSuffix bol k x rest k') ↔
    ∃ a b, x = a ++ b ∧ a ≠ [] ∧ (∀ c ∈ a, 'a' ≤ c ∧ c ≤ 'z') ∧ b ≠ [] ∧ ∀ c ∈ b, Digit c := by
  unfold reSuffix
  simp only [cat, matches_seq, matches_plus_cls]
  constructor
  · rintro ⟨_, a, b, _, rfl, ⟨h1, h2, _⟩, h3, h4, _⟩
    exact ⟨a, b, rfl, h1, fun c hc => by simpa using h2 c hc, h3, fun c hc => Semver.digit_iff.1 (h4 c hc)⟩
  · rintro ⟨a, b, rfl, h1, h2, h3, h4⟩
    exact ⟨_, a, b, _, rfl, ⟨h1, fun c hc => by simpa using h2 c hc, rfl⟩, h3, fun c hc => Semver.digit_iff.2 (h4 c hc), rfl⟩

theorem reGoVersion_eq : reGoVersion = .cat [.bot, .cap 1 rePositive, .ch '.', .cap 2 reNum,
    .opt (.cap 3 rePatch), .opt (.cap 5 reSuffix), .eot] := rfl

theorem goVersion_iff {s : Str} : reGoVersion.isMatch s = true ↔ GoVersion s := by
  rw [isMatch_iff, reGoVersion_eq]
  have hpos : ∀ {bol k x rest k'}, Matches rePositive bol k x rest k' ↔ (Number x ∧ x ≠ g!"0") ∧ k' = k := matches_positive
  constructor
  · rintro ⟨pre, x, post, k, e, h⟩
    obtain ⟨hb, hp⟩ := cat_whole rfl rfl _ _ _ _ _ h
    have hpre : pre = [] := by simpa using hb
    subst hpre hp
    have e : s = x := by simpa using e
    subst e
    simp only [cat, matches_seq, matches_bot, matches_cap, matches_ch, matches_num, matches_opt, hpos, matches_eot] at h
    obtain ⟨_, _, _, rfl, ⟨_, rfl, _⟩, m, _, _, rfl, ⟨_, ⟨hm, _⟩, _⟩, _, _, _, rfl, ⟨rfl, _⟩, n, _, _, rfl, ⟨_, ⟨hn, _⟩, _⟩, p, _, _, rfl, hp, q, _, _,
      rfl, hq, rfl, _, _⟩ := h
    have := GoVersion.mk (m := m) (n := n) (p := p) (s := q) hm.1 hm.2 hn ?_ ?_
    · simpa using this
    · rcases hp with ⟨_, h, _⟩ | ⟨rfl, _⟩
      · exact .inr ((matches_patch (k' := [])).1 ⟨_, h⟩)
      · exact .inl rfl
    · rcases hq with ⟨_, h, _⟩ | ⟨rfl, _⟩
      · exact .inr ((matches_suffix (k' := [])).1 ⟨_, h⟩)
      · exact .inl rfl
  · rintro ⟨hm, h0, hn, hp, hs⟩
    rename_i m n p s
    simp only [cat, matches_seq, matches_bot, matches_cap, matches_ch, matches_num, matches_opt, hpos, matches_eot]
    have hp' : ∀ bol k rest, ∃ k', (∃ k₁, Matches rePatch bol k p rest k₁ ∧ k' = (3, p) :: k₁) ∨ p = [] ∧ k' = k := by
      intro bol k rest
      rcases hp with h | h
      · exact ⟨k, .inr ⟨h, rfl⟩⟩
      · obtain ⟨k₁, h⟩ := (matches_patch (bol := bol) (k := k) (k' := []) (rest := rest)).2 h
        exact ⟨_, .inl ⟨_, h, rfl⟩⟩
    have hs' : ∀ bol k rest, ∃ k', (∃ k₁, Matches reSuffix bol k s rest k₁ ∧ k' = (5, s) :: k₁) ∨ s = [] ∧ k' = k := by
      intro bol k rest
      rcases hs with h | h
      · exact ⟨k, .inr ⟨h, rfl⟩⟩
      · obtain ⟨k₁, h⟩ := (matches_suffix (bol := bol) (k := k) (k' := []) (rest := rest)).2 h
        exact ⟨_, .inl ⟨_, h, rfl⟩⟩
    obtain ⟨k1, hk1⟩ := hp' false [(2, n), (1, m)] (s ++ [])
    obtain ⟨k2, hk2⟩ := hs' false k1 []
    refine ⟨[], m ++ '.' :: n ++ p ++ s, [], k2, by simp, [], m ++ '.' :: (n ++ (p ++ s)), [], by simp, ⟨rfl, rfl, rfl⟩, m, '.' :: (n ++ (p ++ s)), _, rfl, ⟨_, ⟨⟨hm, h0⟩, rfl⟩, rfl⟩,
      ['.'], n ++ (p ++ s), _, rfl, ⟨rfl, rfl⟩, n, p ++ s, _, rfl, ⟨_, ⟨hn, rfl⟩, rfl⟩, p, s, k1, rfl, ?_, s, [], k2, by simp, ?_, rfl, rfl, rfl⟩
    · simpa [hm.1, hn.1] using hk1
    · simpa [hm.1, hn.1] using hk2
end

theorem isToolchain_iff {v : Str} : isToolchain v = true ↔ v = g!"default" ∨ v = g!"go1" ∨ ∃ t, v = g!"go1." ++ t := by
  simp only [isToolchain, Bool.or_eq_true, beq_iff_eq, hasPrefix_iff, or_assoc]

theorem retract_iff {args : List Str} : retract args = some () ↔
    (∃ v t, args = [v] ∧ Value v t ∧ v ≠ g!"(" ∧ v ≠ g!"[") ∨
    (∃ v w t u, args = [g!"[", v, g!",", w, g!"]"] ∧ Value v t ∧ Value w u) := by
  constructor
  · intro h
    unfold retract at h
    split at h
    · rename_i v
      split at h
      · simp at h
      · rename_i hne
        cases hs : string v with
        | none => rw [hs] at h; simp at h
        | some t => exact .inl ⟨v, t, rfl, string_iff.1 hs, fun e => hne (.inl e), fun e => hne (.inr e)⟩
    · rename_i b low comma high e
      cases h1 : string low with
      | none => rw [h1] at h; simp at h
      | some t =>
        cases h2 : string high with
        | none => rw [h1, h2] at h; simp at h
        | some u =>
          rw [h1, h2] at h
          simp only [bind, Option.bind] at h
          split at h
          · rename_i hb
            obtain ⟨rfl, rfl, rfl⟩ := hb
            exact .inr ⟨low, high, t, u, rfl, string_iff.1 h1, string_iff.1 h2⟩
          · simp at h
    · simp at h
  · rintro (⟨v, t, rfl, h, h1, h2⟩ | ⟨v, w, t, u, rfl, h1, h2⟩)
    · unfold retract
      dsimp only
      rw [if_neg (by rintro (e | e); exact h1 e; exact h2 e), string_iff.2 h]
      rfl
    · unfold retract
      dsimp only
      rw [string_iff.2 h1, string_iff.2 h2]
      rfl

/-- A file after one more directive. -/
def File.more (f : File) (verb : Str) (ms : List GoModule) (rs : List GoReplace) : File :=
  { hasGo := f.hasGo || verb == g!"go", hasToolchain := f.hasToolchain || verb == g!"toolchain",
    hasModule := f.hasModule || verb == g!"module", require := f.require ++ ms, replace := f.replace ++ rs }

/-- A directive that may be there only once is not there yet. -/
def File.allows (f : File) (verb : Str) : Prop :=
  (verb = g!"go" → f.hasGo = false) ∧ (verb = g!"toolchain" → f.hasToolchain = false) ∧ (verb = g!"module" → f.hasModule = false)

theorem godebug_iff {kv : Str} : ((kv.any fun c => c == '"' || c == '`' || c == '\'' || c == ',') || !contains kv g!"=") = false ↔
    '=' ∈ kv ∧ ∀ c ∈ kv, c ∉ ['"', '`', '\'', ','] := by
  rw [Bool.or_eq_false_iff, Bool.not_eq_false', contains_char, List.any_eq_false, and_comm]
  refine and_congr_right fun _ => ?_
  constructor
  · intro h c hc
    have := h c hc
    simpa [not_or, and_assoc] using this
  · intro h c hc
    have := h c hc
    simpa [not_or, and_assoc] using this

theorem add_says {f f' : File} {verb : Str} {args : List Str} (h : add f verb args = some f') :
    ∃ ms rs, Says (verb, args) ms rs ∧ f.allows verb ∧ f' = f.more verb ms rs := by
  unfold add at h
  split at h
  · rename_i e; subst e
    split at h
    · split at h
      · rename_i hb
        injection h with h; subst h
        simp only [Bool.and_eq_true, Bool.not_eq_true'] at hb
        exact ⟨[], [], .go (goVersion_iff.1 hb.2), ⟨fun _ => hb.1, fun e => absurd e (by decide), fun e => absurd e (by decide)⟩, by simp [File.more]⟩
      · simp at h
    · simp at h
  split at h
  · rename_i e; subst e
    split at h
    · split at h
      · rename_i hb
        injection h with h; subst h
        simp only [Bool.and_eq_true, Bool.not_eq_true'] at hb
        exact ⟨[], [], .toolchain (isToolchain_iff.1 hb.2), ⟨fun e => absurd e (by decide), fun _ => hb.1, fun e => absurd e (by decide)⟩, by simp [File.more]⟩
      · simp at h
    · simp at h
  split at h
  · rename_i e; subst e
    split at h
    · split at h
      · simp at h
      · rename_i p hb
        cases hs : string p with
        | none => rw [hs] at h; simp at h
        | some t =>
          rw [hs] at h
          injection h with h; subst h
          exact ⟨[], [], .module (string_iff.1 hs), ⟨fun e => absurd e (by decide), fun e => absurd e (by decide), fun _ => by simpa using hb⟩, by simp [File.more]⟩
    · simp at h
  rename_i n1 n2 n3
  have hall : f.allows verb := ⟨fun e => absurd e n1, fun e => absurd e n2, fun e => absurd e n3⟩
  have hmore : ∀ ms rs, f.more verb ms rs = { f with require := f.require ++ ms, replace := f.replace ++ rs } := by
    intro ms rs
    have a1 : (verb == g!"go") = false := by simpa using n1
    have a2 : (verb == g!"toolchain") = false := by simpa using n2
    have a3 : (verb == g!"module") = false := by simpa using n3
    unfold File.more
    rw [a1, a2, a3]
    simp
  have hsame : f = f.more verb [] [] := by rw [hmore]; simp
  split at h
  · rename_i e; subst e
    split at h
    · split at h
      · simp at h
      · rename_i hb
        injection h with h; subst h
        have := godebug_iff.1 (by simpa using hb)
        exact ⟨[], [], .godebug this.1 this.2, hall, hsame⟩
    · simp at h
  split at h
  · rename_i e; subst e
    split at h
    · rename_i p v
      cases hr : requirement p v with
      | none => rw [hr] at h; simp at h
      | some m =>
        rw [hr] at h
        injection h with h; subst h
        exact ⟨[m], [], .require (requirement_iff.1 hr), hall, by rw [hmore]; simp⟩
    · simp at h
  split at h
  · rename_i e; subst e
    split at h
    · rename_i p v
      cases hr : requirement p v with
      | none => rw [hr] at h; simp at h
      | some m =>
        rw [hr] at h
        injection h with h; subst h
        exact ⟨[], [], .exclude (requirement_iff.1 hr), hall, hsame⟩
    · simp at h
  split at h
  · rename_i e; subst e
    cases hr : replace args with
    | none => rw [hr] at h; simp at h
    | some m =>
      rw [hr] at h
      injection h with h; subst h
      refine ⟨[], [m], ?_, hall, by rw [hmore]; simp⟩
      cases replace_iff.1 hr with
      | all h1 h2 h3 => exact .replaceAll h1 h2 h3
      | one h1 h2 => exact .replaceOne h1 h2
  split at h
  · rename_i e; subst e
    cases hr : retract args with
    | none => rw [hr] at h; simp at h
    | some m =>
      rw [hr] at h
      injection h with h; subst h
      rcases retract_iff.1 hr with ⟨v, t, rfl, h1, h2, h3⟩ | ⟨v, w, t, u, rfl, h1, h2⟩
      · exact ⟨[], [], .retract h1 h2 h3, hall, hsame⟩
      · exact ⟨[], [], .retractRange h1 h2, hall, hsame⟩
  split at h
  · rename_i e; subst e
    split at h
    · rename_i p
      cases hr : string p with
      | none => rw [hr] at h; simp at h
      | some m =>
        rw [hr] at h
        injection h with h; subst h
        exact ⟨[], [], .tool (string_iff.1 hr), hall, hsame⟩
    · simp at h
  split at h
  · rename_i e; subst e
    split at h
    · rename_i p
      cases hr : string p with
      | none => rw [hr] at h; simp at h
      | some m =>
        rw [hr] at h
        injection h with h; subst h
        exact ⟨[], [], .ignore (string_iff.1 hr), hall, hsame⟩
    · simp at h
  · simp at h

theorem says_add {f : File} {verb : Str} {args : List Str} {ms : List GoModule} {rs : List GoReplace} (h : Says (verb, args) ms rs)
    (ha : f.allows verb) : add f verb args = some (f.more verb ms rs) := by
  cases h with
  | module h =>
    have := ha.2.2 rfl
    show (if f.hasModule then none else _) = _
    rw [this, string_iff.2 h]
    simp [File.more, this]
  | go h =>
    have := ha.1 rfl
    show (if !f.hasGo && _ then _ else none) = _
    rw [this, goVersion_iff.2 h]
    simp [File.more]
  | toolchain h =>
    have := ha.2.1 rfl
    show (if !f.hasToolchain && _ then _ else none) = _
    rw [this, isToolchain_iff.2 h]
    simp [File.more]
  | @godebug kv h1 h2 =>
    show (if ((kv.any fun c => c == '"' || c == '`' || c == '\'' || c == ',') || !contains kv g!"=") then none else some f) = _
    rw [godebug_iff.2 ⟨h1, h2⟩]
    simp [File.more]
  | @require p v m h =>
    show (requirement p v).map _ = _
    rw [requirement_iff.2 h]
    simp [File.more]
  | @exclude p v m h =>
    show (requirement p v).map _ = _
    rw [requirement_iff.2 h]
    simp [File.more]
  | @replaceAll p path rest pm m h1 h2 h3 =>
    show (replace (p :: g!"=>" :: rest)).map _ = _
    rw [replace_iff.2 (.all h1 h2 h3)]
    simp [File.more]
  | @replaceOne p v rest old m h1 h2 =>
    show (replace (p :: v :: g!"=>" :: rest)).map _ = _
    rw [replace_iff.2 (.one h1 h2)]
    simp [File.more]
  | @retract v t h1 h2 h3 =>
    show (ModFile.retract [v]).map _ = _
    rw [retract_iff.2 (.inl ⟨v, t, rfl, h1, h2, h3⟩)]
    simp [File.more]
  | @retractRange v w t u h1 h2 =>
    show (ModFile.retract [g!"[", v, g!",", w, g!"]"]).map _ = _
    rw [retract_iff.2 (.inr ⟨v, w, t, u, rfl, h1, h2⟩)]
    simp [File.more]
  | @tool p path h =>
    show (string p).map _ = _
    rw [string_iff.2 h]
    simp [File.more]
  | @ignore p path h =>
    show (string p).map _ = _
    rw [string_iff.2 h]
    simp [File.more]

end Osv.ModFile
