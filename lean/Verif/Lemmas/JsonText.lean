import Verif.Spec.JsonText
import Verif.Lemmas.Json
/-! # The reader of JSON and the texts of a value -/
namespace Osv.JText
open Osv Osv.Json Osv.Spec

theorem takeWhile_mem {p : Char → Bool} {c : Char} : ∀ {s : Str}, c ∈ s.takeWhile p → p c = true
  | [], h => by simp at h
  | x :: s, h => by
    by_cases hx : p x = true
    · rw [List.takeWhile_cons_of_pos hx] at h
      rcases List.mem_cons.1 h with rfl | h
      · exact hx
      · exact takeWhile_mem h
    · rw [List.takeWhile_cons_of_neg hx] at h
      cases h

/-! ## White space -/

theorem ws_iff (c : Char) : ws c = true ↔ (c = ' ' ∨ c = '\t' ∨ c = '\r' ∨ c = '\n') := by
  simp only [ws, Bool.or_eq_true, beq_iff_eq, or_assoc]

theorem skip_blank {g : Str} (h : JBlank g) (s : Str) : skipWs (g ++ s) = skipWs s := by
  unfold skipWs
  rw [List.dropWhile_append_of_pos fun c hc => (ws_iff c).2 (h c hc)]

theorem next_blank {g : Str} (h : JBlank g) (s : Str) : next (g ++ s) = next s := by
  unfold next; rw [skip_blank h]

theorem next_some {s : Str} {c : Char} {r : Str} (h : next s = some (c, r)) :
    ∃ g, JBlank g ∧ s = g ++ c :: r ∧ ws c = false := by
  refine ⟨s.takeWhile ws, fun x hx => (ws_iff x).1 (takeWhile_mem hx), ?_, ?_⟩
  · unfold next skipWs at h
    split at h
    · cases h
    · rename_i heq
      cases h
      rw [← heq, List.takeWhile_append_dropWhile]
  · unfold next skipWs at h
    split at h
    · cases h
    · rename_i heq
      cases h
      have := List.head?_dropWhile_not ws s
      rw [heq] at this
      simpa using this

theorem blank_nil : JBlank [] := by simp [JBlank]

theorem blank_append {a b : Str} (ha : JBlank a) (hb : JBlank b) : JBlank (a ++ b) := by
  intro c hc
  rcases List.mem_append.1 hc with h | h
  · exact ha c h
  · exact hb c h

/-! ## Numbers -/

theorem digit_iff (c : Char) : Str.isDigit c = true ↔ '0' ≤ c ∧ c ≤ '9' := by
  simp [Str.isDigit]

/-- What does not continue a number. -/
def Stop (t : Str) : Prop := ∀ c ∈ t.head?, c = ',' ∨ c = ']' ∨ c = '}' ∨ ws c = true

theorem Stop.facts {t : Str} (h : Stop t) : ∀ c ∈ t.head?, Str.isDigit c = false ∧ c ≠ '.' ∧ c ≠ 'e' ∧ c ≠ 'E' := by
  intro c hc
  rcases h c hc with rfl | rfl | rfl | h
  · decide
  · decide
  · decide
  · rcases (ws_iff c).1 h with rfl | rfl | rfl | rfl <;> decide

theorem digits_run {d t : Str} (hd : ∀ c ∈ d, '0' ≤ c ∧ c ≤ '9') (ht : ∀ c ∈ t.head?, Str.isDigit c = false) :
    digits (d ++ t) = (d, t) := by
  unfold digits
  have hall : ∀ c ∈ d, Str.isDigit c = true := fun c hc => (digit_iff c).2 (hd c hc)
  rw [List.takeWhile_append_of_pos hall, List.dropWhile_append_of_pos hall, Str.dropWhile_self _ _ ht]
  have : t.takeWhile Str.isDigit = [] := by
    cases t with
    | nil => rfl
    | cons c t => simp [ht c (by simp)]
  rw [this, List.append_nil]

theorem digits_spec (s : Str) : s = (digits s).1 ++ (digits s).2 ∧ ∀ c ∈ (digits s).1, '0' ≤ c ∧ c ≤ '9' :=
  ⟨(List.takeWhile_append_dropWhile).symm, fun c hc => (digit_iff c).1 (takeWhile_mem hc)⟩

/-- A number literal is read up to its end. -/
theorem scanNum_number {l t : Str} (h : JNumber l) (ht : Stop t) : scanNum (l ++ t) = some (l, t) := by
  obtain ⟨sign, int, frac, exp, rfl, hs, hi, hf, he⟩ := h
  have h1 : ∀ r, scanMinus (sign ++ int ++ r) = (sign, int ++ r) := by
    intro r
    rcases hs with rfl | rfl
    · rw [List.nil_append]
      have : ∃ c q, int = c :: q ∧ c ≠ '-' := by
        rcases hi with rfl | ⟨⟨h1, h2⟩, -⟩
        · exact ⟨_, _, rfl, by decide⟩
        · cases int with
          | nil => exact absurd rfl h1
          | cons c q =>
            refine ⟨c, q, rfl, ?_⟩
            rintro rfl
            exact absurd (h2 '-' (by simp)).1 (by decide)
      obtain ⟨c, q, rfl, hc⟩ := this
      rw [List.cons_append, scanMinus]
      rintro r' h; cases h; exact hc rfl
    · rfl
  have hex : scanExp (exp ++ t) = some (exp, t) := by
    rcases he with rfl | ⟨e, sg, d, he, hsg, hd, rfl⟩
    · cases t with
      | nil => rfl
      | cons c t =>
        have := ht.facts c (by simp)
        rw [List.nil_append, scanExp]
        simp [this.2.2]
    · simp only [List.cons_append, List.append_assoc, scanExp]
      have he' : (e == 'e' || e == 'E') = true := by simpa using he
      rw [if_pos he']
      have hsn : scanSign (sg ++ (d ++ t)) = (sg, d ++ t) := by
        rcases hsg with rfl | rfl | rfl
        · rw [List.nil_append]
          cases d with
          | nil => exact absurd rfl hd.1
          | cons c d =>
            have hc := hd.2 c (by simp)
            rw [List.cons_append, scanSign]
            · rintro r h; cases h; revert hc; decide
            · rintro r h; cases h; revert hc; decide
        · rfl
        · rfl
      rw [hsn]
      simp only
      rw [digits_run hd.2 (fun c hc => (ht.facts c hc).1)]
      simp [hd.1]
  have hdot : ∀ c ∈ (exp ++ t).head?, Str.isDigit c = false ∧ c ≠ '.' := by
    intro c hc
    rcases he with rfl | ⟨e, sg, d, he, hsg, hd, rfl⟩
    · exact ⟨(ht.facts c hc).1, (ht.facts c hc).2.1⟩
    · simp only [List.cons_append, List.head?_cons, Option.mem_def, Option.some.injEq] at hc
      subst hc
      rcases he with rfl | rfl <;> decide
  have hfr : scanFrac (frac ++ (exp ++ t)) = some (frac, exp ++ t) := by
    rcases hf with rfl | ⟨d, hd, rfl⟩
    · rw [List.nil_append]
      generalize exp ++ t = x at hdot
      cases x with
      | nil => rfl
      | cons c x =>
        rw [scanFrac]
        rintro r h; cases h; exact (hdot '.' (by simp)).2 rfl
    · rw [List.cons_append, scanFrac, digits_run hd.2 (fun c hc => (hdot c hc).1)]
      simp [hd.1]
  have hnd : ∀ c ∈ (frac ++ (exp ++ t)).head?, Str.isDigit c = false := by
    intro c hc
    rcases hf with rfl | ⟨d, hd, rfl⟩
    · exact (hdot c hc).1
    · simp only [List.cons_append, List.head?_cons, Option.mem_def, Option.some.injEq] at hc
      subst hc; decide
  have hin : scanInt (int ++ (frac ++ (exp ++ t))) = some (int, frac ++ (exp ++ t)) := by
    rcases hi with rfl | ⟨⟨h1, h2⟩, h3⟩
    · rfl
    · cases int with
      | nil => exact absurd rfl h1
      | cons c q =>
        have hc : c ≠ '0' := by simpa using h3
        rw [List.cons_append, scanInt, if_pos ((digit_iff c).2 (h2 c (by simp))),
          digits_run (fun x hx => h2 x (by simp [hx])) hnd]
        rintro h; exact hc h
  unfold scanNum
  rw [show sign ++ int ++ frac ++ exp ++ t = sign ++ int ++ (frac ++ (exp ++ t)) by simp only [List.append_assoc], h1]
  simp only
  rw [hin, Option.bind_some]
  simp only
  rw [hfr, Option.bind_some]
  simp only
  rw [hex]
  rfl

/-- What is read as a number is a number literal. -/
theorem number_of_scan {s l r : Str} (h : scanNum s = some (l, r)) : JNumber l ∧ s = l ++ r := by
  unfold scanNum at h
  simp only [Option.bind_eq_some_iff, Option.map_eq_some_iff] at h
  obtain ⟨⟨i1, i2⟩, hi, ⟨f1, f2⟩, hf, ⟨e1, e2⟩, he, hx⟩ := h
  simp only [Prod.mk.injEq] at hx hi hf he
  obtain ⟨rfl, rfl⟩ := hx
  have hm : s = (scanMinus s).1 ++ (scanMinus s).2 ∧ ((scanMinus s).1 = [] ∨ (scanMinus s).1 = g!"-") := by
    unfold scanMinus
    split
    · exact ⟨rfl, .inr rfl⟩
    · exact ⟨rfl, .inl rfl⟩
  have hi' : (scanMinus s).2 = i1 ++ i2 ∧ (i1 = g!"0" ∨ (DecDigits i1 ∧ i1.head? ≠ some '0')) := by
    generalize (scanMinus s).2 = x at hi
    unfold scanInt at hi
    split at hi
    · cases hi; exact ⟨rfl, .inl rfl⟩
    · rename_i c q hc
      split at hi
      · rename_i hd
        cases hi
        have := digits_spec q
        refine ⟨by rw [List.cons_append, ← this.1], .inr ⟨⟨by simp, ?_⟩, ?_⟩⟩
        · intro x hx
          rcases List.mem_cons.1 hx with rfl | hx
          · exact (digit_iff _).1 hd
          · exact this.2 x hx
        · simp only [List.head?_cons, ne_eq, Option.some.injEq]
          exact hc
      · cases hi
    · cases hi
  have hf' : i2 = f1 ++ f2 ∧ (f1 = [] ∨ ∃ d, DecDigits d ∧ f1 = '.' :: d) := by
    unfold scanFrac at hf
    split at hf
    · rename_i q
      split at hf
      · cases hf
      · rename_i hd
        cases hf
        have := digits_spec q
        exact ⟨by rw [List.cons_append, ← this.1], .inr ⟨_, ⟨hd, this.2⟩, rfl⟩⟩
    · cases hf; exact ⟨rfl, .inl rfl⟩
  have he' : f2 = e1 ++ e2 ∧ (e1 = [] ∨ ∃ e sg d, (e = 'e' ∨ e = 'E') ∧ (sg = [] ∨ sg = g!"+" ∨ sg = g!"-") ∧ DecDigits d ∧
      e1 = e :: sg ++ d) := by
    unfold scanExp at he
    split at he
    · cases he; exact ⟨rfl, .inl rfl⟩
    · rename_i c q
      split at he
      · rename_i hc
        have hsg : q = (scanSign q).1 ++ (scanSign q).2 ∧ ((scanSign q).1 = [] ∨ (scanSign q).1 = g!"+" ∨ (scanSign q).1 = g!"-") := by
          unfold scanSign
          split
          · exact ⟨rfl, .inr (.inl rfl)⟩
          · exact ⟨rfl, .inr (.inr rfl)⟩
          · exact ⟨rfl, .inl rfl⟩
        dsimp only at he
        split at he
        · cases he
        · rename_i hd
          cases he
          have := digits_spec (scanSign q).2
          refine ⟨?_, .inr ⟨c, (scanSign q).1, _, by simpa using hc, hsg.2, ⟨hd, this.2⟩, rfl⟩⟩
          conv => lhs; rw [hsg.1, this.1]
          simp
      · cases he; exact ⟨rfl, .inl rfl⟩
  refine ⟨⟨_, i1, f1, e1, rfl, hm.2, hi'.2, hf'.2, he'.2⟩, ?_⟩
  conv => lhs; rw [hm.1, hi'.1, hf'.1, he'.1]
  simp only [List.append_assoc]

/-! ## Strings -/

theorem hexDigit_facts {c : Char} {n : Nat} (h : HexDigit c n) : isHex c = true ∧ hexVal c = n ∧ n < 16 := by
  have key : ∀ n, n < 16 → ∀ c : Char, (g!"0123456789abcdef"[n]? = some c ∨ g!"0123456789ABCDEF"[n]? = some c) →
      isHex c = true ∧ hexVal c = n := by
    intro n hn c hc
    have hn' : n = 0 ∨ n = 1 ∨ n = 2 ∨ n = 3 ∨ n = 4 ∨ n = 5 ∨ n = 6 ∨ n = 7 ∨ n = 8 ∨ n = 9 ∨ n = 10 ∨ n = 11 ∨ n = 12 ∨
      n = 13 ∨ n = 14 ∨ n = 15 := by omega
    rcases hn' with rfl | rfl | rfl | rfl | rfl | rfl | rfl | rfl | rfl | rfl | rfl | rfl | rfl | rfl | rfl | rfl <;>
      (rcases hc with hc | hc <;> (cases hc; decide))
  have hn : n < 16 := by
    rcases h with h | h
    · exact (List.getElem?_eq_some_iff.1 h).1
    · exact (List.getElem?_eq_some_iff.1 h).1
  exact ⟨(key n hn c h).1, (key n hn c h).2, hn⟩

theorem hexDigit_of {c : Char} (h : isHex c = true) : HexDigit c (hexVal c) := by
  have key : ∀ n, n < 103 → isHex (Char.ofNat n) = true → HexDigit (Char.ofNat n) (hexVal (Char.ofNat n)) := by
    unfold HexDigit
    decide +kernel
  have hc : c.toNat < 103 := by
    simp only [isHex, Bool.or_eq_true, Bool.and_eq_true, decide_eq_true_eq] at h
    have hle : ∀ a b : Char, a ≤ b ↔ a.toNat ≤ b.toNat := fun a b => Iff.rfl
    simp only [hle] at h
    rcases h with (h | h) | h
    · have : c.toNat ≤ 57 := h.2
      omega
    · have : c.toNat ≤ 102 := h.2
      omega
    · have : c.toNat ≤ 70 := h.2
      omega
  have := key c.toNat hc
  rw [Char.ofNat_toNat] at this
  exact this h

theorem unit_facts {u : Str} {n : Nat} (h : CodeUnit u n) :
    ∃ a b c d, u = ['\\', 'u', a, b, c, d] ∧ isHex a = true ∧ isHex b = true ∧ isHex c = true ∧ isHex d = true ∧ hex4 a b c d = n := by
  obtain ⟨a, b, c, d, w, x, y, z, ha, hb, hc, hd, rfl, rfl⟩ := h
  have ha := hexDigit_facts ha
  have hb := hexDigit_facts hb
  have hc := hexDigit_facts hc
  have hd := hexDigit_facts hd
  refine ⟨a, b, c, d, rfl, ha.1, hb.1, hc.1, hd.1, ?_⟩
  unfold hex4
  rw [ha.2.1, hb.2.1, hc.2.1, hd.2.1]
  omega

theorem unit_of {a b c d : Char} (ha : isHex a = true) (hb : isHex b = true) (hc : isHex c = true) (hd : isHex d = true) :
    CodeUnit ['\\', 'u', a, b, c, d] (hex4 a b c d) := by
  refine ⟨a, b, c, d, _, _, _, _, hexDigit_of ha, hexDigit_of hb, hexDigit_of hc, hexDigit_of hd, rfl, ?_⟩
  unfold hex4
  omega

theorem high_iff (n : Nat) : isHigh n = true ↔ HighSurrogate n := by
  simp only [isHigh, HighSurrogate, Bool.and_eq_true, decide_eq_true_eq]; omega

theorem low_iff (n : Nat) : isLow n = true ↔ LowSurrogate n := by
  simp only [isLow, LowSurrogate, Bool.and_eq_true, decide_eq_true_eq]; omega

theorem unquote_pair {a b c d a' b' c' d' : Char} (r : Str) (h : isHigh (hex4 a b c d) = true) (h' : isLow (hex4 a' b' c' d') = true) :
    unquote ('\\' :: 'u' :: a :: b :: c :: d :: '\\' :: 'u' :: a' :: b' :: c' :: d' :: r) =
      Char.ofNat (0x10000 + (hex4 a b c d - 0xD800) * 0x400 + (hex4 a' b' c' d' - 0xDC00)) :: unquote r := by
  rw [unquote.eq_def]
  simp only [h, h', Bool.and_self, if_true]

theorem unquote_alone {a b c d : Char} (r : Str) (h : isHigh (hex4 a b c d) = true ∨ isLow (hex4 a b c d) = true)
    (h' : isHigh (hex4 a b c d) = true → ∀ a' b' c' d' q, r = '\\' :: 'u' :: a' :: b' :: c' :: d' :: q → isLow (hex4 a' b' c' d') = false) :
    unquote ('\\' :: 'u' :: a :: b :: c :: d :: r) = '�' :: unquote r := by
  rw [unquote.eq_def]
  have hor : (isHigh (hex4 a b c d) || isLow (hex4 a b c d)) = true := by simpa using h
  split
  · simp_all
  · rename_i a' b' c' d' q heq
    cases heq
    have hnp : (isHigh (hex4 a b c d) && isLow (hex4 a' b' c' d')) = false := by
      cases hh : isHigh (hex4 a b c d) with
      | false => rfl
      | true => rw [h' hh _ _ _ _ _ rfl]; rfl
    simp only [hnp, hor, if_true]
    rfl
  · rename_i heq; cases heq; simp [hor]
  · rename_i hx heq; cases heq; exact absurd rfl (hx _ _ _ _ _ rfl)
  · rename_i h1 h2 h3 h4 heq; cases heq; exact absurd rfl (h4 _ _ rfl)

theorem scanStr_u {a b c d : Char} (ha : isHex a = true) (hb : isHex b = true) (hc : isHex c = true) (hd : isHex d = true) (r : Str) :
    scanStr ('\\' :: 'u' :: a :: b :: c :: d :: r) = (scanStr r).map fun x => ('\\' :: 'u' :: a :: b :: c :: d :: x.1, x.2) := by
  rw [scanStr, ha, hb, hc, hd]; rfl

/-- A raw text beginning with `\u` begins with a code unit. -/
theorem chars_u {t raw : Str} (h : JChars t raw) : ∀ q, raw = '\\' :: 'u' :: q → ∃ u n rest, CodeUnit u n ∧ raw = u ++ rest := by
  cases h with
  | nil => intro q e; cases e
  | plain _ hb _ _ => intro q e; cases e; exact absurd rfl hb
  | short he _ => intro q e; cases e; revert he; simp [shortEscapes]
  | unit hu _ _ _ => intro q _; exact ⟨_, _, _, hu, rfl⟩
  | pair hu _ _ _ _ => intro q _; exact ⟨_, _, _, hu, rfl⟩
  | alone hu _ _ _ => intro q _; exact ⟨_, _, _, hu, rfl⟩

/-- A written string is read up to its quote, and stands for the text. -/
theorem scan_chars {t raw : Str} (h : JChars t raw) : (∀ r, scanStr (raw ++ '"' :: r) = some (raw, r)) ∧ unquote raw = t := by
  induction h with
  | nil => exact ⟨fun r => rfl, rfl⟩
  | @plain c t raw hq hb hc _ ih =>
    refine ⟨fun r => ?_, by rw [unquote_plain _ hb, ih.2]⟩
    rw [List.cons_append, scanStr_plain hq hb, ih.1 r, if_neg (by omega)]
    rfl
  | @short e c t raw he _ ih =>
    have he' : e ≠ 'u' ∧ simpleEscape e = c ∧
        (e == '"' || e == '\\' || e == '/' || e == 'b' || e == 'f' || e == 'n' || e == 'r' || e == 't') = true := by
      simp only [shortEscapes, List.mem_cons, Prod.mk.injEq, List.mem_nil_iff, or_false] at he
      rcases he with ⟨rfl, rfl⟩ | ⟨rfl, rfl⟩ | ⟨rfl, rfl⟩ | ⟨rfl, rfl⟩ | ⟨rfl, rfl⟩ | ⟨rfl, rfl⟩ | ⟨rfl, rfl⟩ | ⟨rfl, rfl⟩ <;> decide
    refine ⟨fun r => ?_, by rw [unquote_simple _ he'.1, ih.2, he'.2.1]⟩
    rw [List.cons_append, List.cons_append, scanStr, if_pos he'.2.2, ih.1 r]
    · rfl
    · intro a b c d r h; exact absurd h he'.1
  | @unit u n t raw hu hh hl _ ih =>
    obtain ⟨a, b, c, d, rfl, ha, hb, hc, hd, rfl⟩ := unit_facts hu
    refine ⟨fun r => ?_, ?_⟩
    · simp only [List.cons_append, List.nil_append]
      rw [scanStr_u ha hb hc hd, ih.1 r]
      rfl
    · simp only [List.cons_append, List.nil_append]
      rw [unquote_u _ (Bool.eq_false_iff.2 fun e => hh ((high_iff _).1 e)) (Bool.eq_false_iff.2 fun e => hl ((low_iff _).1 e)), ih.2]
  | @pair u w n m t raw hu hw hh hl _ ih =>
    obtain ⟨a, b, c, d, rfl, ha, hb, hc, hd, rfl⟩ := unit_facts hu
    obtain ⟨a', b', c', d', rfl, ha', hb', hc', hd', rfl⟩ := unit_facts hw
    refine ⟨fun r => ?_, ?_⟩
    · simp only [List.cons_append, List.nil_append]
      rw [scanStr_u ha hb hc hd, scanStr_u ha' hb' hc' hd', ih.1 r]
      rfl
    · simp only [List.cons_append, List.nil_append]
      rw [unquote_pair _ ((high_iff _).2 hh) ((low_iff _).2 hl), ih.2]
  | @alone u n t raw hu hs hn hj ih =>
    obtain ⟨a, b, c, d, rfl, ha, hb, hc, hd, rfl⟩ := unit_facts hu
    refine ⟨fun r => ?_, ?_⟩
    · simp only [List.cons_append, List.nil_append]
      rw [scanStr_u ha hb hc hd, ih.1 r]
      rfl
    · simp only [List.cons_append, List.nil_append]
      rw [unquote_alone, ih.2]
      · exact hs.imp (high_iff _).2 (low_iff _).2
      · rintro hh a' b' c' d' q rfl
        obtain ⟨w, m, rest, hw, e⟩ := chars_u hj _ rfl
        obtain ⟨a2, b2, c2, d2, rfl, -, -, -, -, rfl⟩ := unit_facts hw
        simp only [List.cons_append, List.nil_append, List.cons.injEq, true_and] at e
        obtain ⟨rfl, rfl, rfl, rfl, rfl⟩ := e
        refine Bool.eq_false_iff.2 fun el => hn ((high_iff _).1 hh) ⟨_, _, q, hw, (low_iff _).1 el, rfl⟩

/-- What is read as a string, cut at its closing quote. -/
theorem scanStr_split {s raw r : Str} (h : scanStr s = some (raw, r)) : s = raw ++ '"' :: r := by
  induction s using scanStr.induct generalizing raw r with
  | case1 => simp [scanStr] at h
  | case2 q => simp [scanStr] at h; obtain ⟨rfl, rfl⟩ := h; rfl
  | case3 a b c d q hx ih =>
    rw [scanStr, if_pos hx] at h
    obtain ⟨x, hx', e⟩ := Option.map_eq_some_iff.1 h
    cases e
    rw [ih hx']
    rfl
  | case4 a b c d q hx => rw [scanStr, if_neg hx] at h; cases h
  | case5 e q hn hx ih =>
    rw [scanStr, if_pos hx] at h
    · obtain ⟨x, hx', e⟩ := Option.map_eq_some_iff.1 h
      cases e
      rw [ih hx']
      rfl
    · exact hn
  | case6 e q hn hx =>
    rw [scanStr, if_neg hx] at h
    · cases h
    · exact hn
  | case7 => simp [scanStr] at h
  | case8 c q hq h1 h2 h3 hc =>
    have hb : c ≠ '\\' := by
      rintro rfl
      cases q with
      | nil => exact h3 rfl rfl
      | cons e q => exact h2 _ _ rfl rfl
    rw [scanStr_plain hq hb, if_pos hc] at h
    cases h
  | case9 c q hq h1 h2 h3 hc ih =>
    have hb : c ≠ '\\' := by
      rintro rfl
      cases q with
      | nil => exact h3 rfl rfl
      | cons e q => exact h2 _ _ rfl rfl
    rw [scanStr_plain hq hb, if_neg hc] at h
    obtain ⟨x, hx', e⟩ := Option.map_eq_some_iff.1 h
    cases e
    rw [ih hx']
    rfl

theorem scanStr_u_inv {x raw r : Str} (h : scanStr ('\\' :: 'u' :: x) = some (raw, r)) :
    ∃ a b c d x' y, x = a :: b :: c :: d :: x' ∧ (((isHex a = true ∧ isHex b = true) ∧ isHex c = true) ∧ isHex d = true) ∧
      scanStr x' = some y ∧ raw = '\\' :: 'u' :: a :: b :: c :: d :: y.1 ∧ r = y.2 := by
  match x, h with
  | a :: b :: c :: d :: x', h =>
    rw [scanStr] at h
    split at h
    · rename_i hx
      simp only [Bool.and_eq_true] at hx
      obtain ⟨y, hy, e⟩ := Option.map_eq_some_iff.1 h
      cases e
      exact ⟨a, b, c, d, x', y, rfl, hx, hy, rfl, rfl⟩
    · cases h
  | [], h => simp [scanStr] at h
  | [_], h => simp [scanStr] at h
  | [_, _], h => simp [scanStr] at h
  | [_, _, _], h => simp [scanStr] at h

/-- What is read as a string is a written string. -/
theorem chars_of_scan : ∀ (n : Nat) (raw s r : Str), raw.length ≤ n → scanStr s = some (raw, r) → JChars (unquote raw) raw
  | n, [], _, _, _, _ => .nil
  | 0, _ :: _, _, _, hn, _ => by simp at hn
  | n + 1, c :: raw, s, r, hn, h => by
    simp only [List.length_cons, Nat.add_le_add_iff_right] at hn
    have hs := scanStr_split h
    rw [List.cons_append] at hs
    subst hs
    by_cases hb : c = '\\'
    · subst hb
      match raw, hn, h with
      | [], _, h => simp [scanStr] at h
      | e :: raw, hn, h =>
      by_cases heu : e = 'u'
      · subst heu
        obtain ⟨a, b, c, d, x', ⟨x1, x2⟩, -, hx, hx', e, -⟩ := scanStr_u_inv h
        simp only [List.cons.injEq, true_and] at e
        subst e
        simp only [List.length_cons] at hn
        have hu := unit_of hx.1.1.1 hx.1.1.2 hx.1.2 hx.2
        have ih := chars_of_scan n x1 _ x2 (by omega) hx'
        by_cases hs : HighSurrogate (hex4 a b c d) ∨ LowSurrogate (hex4 a b c d)
        · by_cases hp : HighSurrogate (hex4 a b c d) ∧ ∃ w m rest, CodeUnit w m ∧ LowSurrogate m ∧ x1 = w ++ rest
          · obtain ⟨hh, w, m, rest, hw, hl, rfl⟩ := hp
            obtain ⟨a', b', c', d', rfl, ha', hb', hc', hd', rfl⟩ := unit_facts hw
            simp only [List.cons_append, List.nil_append] at hx' hn ⊢
            have hsp := scanStr_split hx'
            simp only [List.cons_append] at hsp
            subst hsp
            rw [scanStr_u ha' hb' hc' hd'] at hx'
            obtain ⟨y, hy, e⟩ := Option.map_eq_some_iff.1 hx'
            obtain ⟨y1, y2⟩ := y
            simp only [Prod.mk.injEq, List.cons.injEq, true_and] at e
            obtain ⟨rfl, rfl⟩ := e
            simp only [List.length_cons] at hn
            rw [unquote_pair _ ((high_iff _).2 hh) ((low_iff _).2 hl)]
            exact .pair hu hw hh hl (chars_of_scan n y1 _ y2 (by omega) hy)
          · rw [unquote_alone]
            · exact .alone hu hs (fun hh hw => hp ⟨hh, hw⟩) ih
            · exact hs.imp (high_iff _).2 (low_iff _).2
            · rintro hh a' b' c' d' q rfl
              refine Bool.eq_false_iff.2 fun el => hp ⟨(high_iff _).1 hh, ?_⟩
              obtain ⟨w, m, rest, hw, e⟩ := chars_u ih _ rfl
              obtain ⟨a2, b2, c2, d2, rfl, -, -, -, -, rfl⟩ := unit_facts hw
              simp only [List.cons_append, List.nil_append, List.cons.injEq, true_and] at e
              obtain ⟨rfl, rfl, rfl, rfl, rfl⟩ := e
              exact ⟨_, _, q, hw, (low_iff _).1 el, rfl⟩
        · rw [unquote_u]
          · exact .unit hu (fun e => hs (.inl e)) (fun e => hs (.inr e)) ih
          · exact Bool.eq_false_iff.2 fun e => hs (.inl ((high_iff _).1 e))
          · exact Bool.eq_false_iff.2 fun e => hs (.inr ((low_iff _).1 e))
      · simp only [List.cons_append] at h
        rw [scanStr] at h
        · split at h
          · rename_i hx
            obtain ⟨x, hx', e'⟩ := Option.map_eq_some_iff.1 h
            obtain ⟨x1, x2⟩ := x
            simp only [Prod.mk.injEq, List.cons.injEq, true_and] at e'
            obtain ⟨rfl, rfl⟩ := e'
            rw [unquote_simple _ heu]
            simp only [List.length_cons] at hn
            refine .short ?_ (chars_of_scan n x1 _ x2 (by omega) hx')
            simp only [Bool.or_eq_true, beq_iff_eq] at hx
            rcases hx with ((((((rfl | rfl) | rfl) | rfl) | rfl) | rfl) | rfl) | rfl <;> decide
          · cases h
        · intro a b c d r h' _; exact heu h'
    · have hq : c ≠ '"' := by
        rintro rfl
        simp [scanStr] at h
      rw [scanStr_plain hq hb] at h
      split at h
      · cases h
      · rename_i hc
        obtain ⟨x, hx', e⟩ := Option.map_eq_some_iff.1 h
        obtain ⟨x1, x2⟩ := x
        simp only [Prod.mk.injEq, List.cons.injEq, true_and] at e
        obtain ⟨rfl, rfl⟩ := e
        rw [unquote_plain _ hb]
        exact .plain hq hb (by omega) (chars_of_scan n x1 _ x2 hn hx')

theorem scan_string {t q : Str} (h : JString t q) (r : Str) :
    ∃ x raw, q ++ r = '"' :: x ∧ scanStr x = some (raw, r) ∧ unquote raw = t := by
  obtain ⟨raw, hr, rfl⟩ := h
  obtain ⟨h1, h2⟩ := scan_chars hr
  exact ⟨raw ++ '"' :: r, raw, by simp, h1 r, h2⟩

theorem string_of_scan {s raw r : Str} (h : scanStr s = some (raw, r)) : ∃ q, JString (unquote raw) q ∧ '"' :: s = q ++ r :=
  ⟨'"' :: (raw ++ ['"']), ⟨raw, chars_of_scan _ raw s r (Nat.le_refl _) h, rfl⟩, by rw [scanStr_split h]; simp⟩

/-! ## Values -/

theorem stop_elems {l : JList} {b : Str} (h : JElems jsonLayout l b) (t : Str) : Stop (b ++ t) := by
  cases l with
  | nil =>
    obtain ⟨g, hg, rfl⟩ := h
    cases g with
    | nil => intro c hc; simp at hc; exact .inr (.inl hc.symm)
    | cons x g => intro c hc; simp at hc; subst hc; exact .inr (.inr (.inr ((ws_iff _).2 (hg _ (by simp)))))
  | cons v l =>
    obtain ⟨f, g, a, b, hf, _, _, _, rfl⟩ := h
    cases f with
    | nil => intro c hc; simp at hc; exact .inl hc.symm
    | cons x f => intro c hc; simp at hc; subst hc; exact .inr (.inr (.inr ((ws_iff _).2 (hf _ (by simp)))))

theorem stop_membs {m : JMembers} {b : Str} (h : JMembs jsonLayout m b) (t : Str) : Stop (b ++ t) := by
  cases m with
  | nil =>
    obtain ⟨g, hg, rfl⟩ := h
    cases g with
    | nil => intro c hc; simp at hc; exact .inr (.inr (.inl hc.symm))
    | cons x g => intro c hc; simp at hc; subst hc; exact .inr (.inr (.inr ((ws_iff _).2 (hg _ (by simp)))))
  | cons k v m =>
    obtain ⟨f, g, q, h, i, a, b, hf, _, _, _, _, _, _, rfl⟩ := h
    cases f with
    | nil => intro c hc; simp at hc; exact .inl hc.symm
    | cons x f => intro c hc; simp at hc; subst hc; exact .inr (.inr (.inr ((ws_iff _).2 (hf _ (by simp)))))

/-- First character of a number literal. -/
theorem number_head {l : Str} (h : JNumber l) : ∃ c q, l = c :: q ∧ (c = '-' ∨ Str.isDigit c = true) := by
  have := scanNum_number h (t := []) (by simp [Stop])
  rw [List.append_nil] at this
  exact numOk_head this

/-- The first character of a value is no white space and no closing bracket. -/
theorem text_head {L : Layout} {v : JVal} {s : Str} (h : JText L v s) : ∃ c q, s = c :: q ∧ ws c = false ∧ c ≠ ']' ∧ c ≠ '}' := by
  cases v with
  | null => cases h; exact ⟨_, _, rfl, by decide⟩
  | bool b => cases b <;> (cases h; exact ⟨_, _, rfl, by decide⟩)
  | num l =>
    obtain ⟨h, rfl⟩ := h
    obtain ⟨c, q, rfl, hc⟩ := number_head h
    have := digit_facts hc
    exact ⟨c, q, rfl, this.1, this.2.2.2.2.2.2.2.1, this.2.2.2.2.2.2.2.2⟩
  | str t => obtain ⟨raw, _, rfl⟩ := h; exact ⟨_, _, rfl, by decide⟩
  | arr l =>
    cases l with
    | nil => obtain ⟨g, _, rfl⟩ := h; exact ⟨_, _, rfl, by decide⟩
    | cons v l => obtain ⟨g, a, b, _, _, _, rfl⟩ := h; exact ⟨_, _, rfl, by decide⟩
  | obj m =>
    cases m with
    | nil => obtain ⟨g, _, rfl⟩ := h; exact ⟨_, _, rfl, by decide⟩
    | cons k v m => obtain ⟨g, q, h, i, a, b, _, _, _, _, _, _, rfl⟩ := h; exact ⟨_, _, rfl, by decide⟩

mutual
/-- A text of a value is read as the value. -/
theorem parseVal_text (v : JVal) (g s : Str) (hg : JBlank g) (hv : JText jsonLayout v s) (t : Str) (ht : Stop t) :
    ∃ n, parseVal n (g ++ (s ++ t)) = some (v, t) := by
  match v, hv with
  | .null, h => cases h; refine ⟨1, ?_⟩; rw [parseVal, next_blank hg]; rfl
  | .bool true, h => cases h; refine ⟨1, ?_⟩; rw [parseVal, next_blank hg]; rfl
  | .bool false, h => cases h; refine ⟨1, ?_⟩; rw [parseVal, next_blank hg]; rfl
  | .num l, h =>
    obtain ⟨h, rfl⟩ := h
    refine ⟨1, ?_⟩
    have hs := scanNum_number h ht
    obtain ⟨c, q, rfl, hc⟩ := number_head h
    obtain ⟨h1, h2, h3, h4, h5, h6, h7, -, -⟩ := digit_facts hc
    rw [parseVal, next_blank hg, List.cons_append, next_cons _ h1, Option.bind_some]
    simp only [h2, h3, h4, h5, h6, h7, if_false]
    rw [List.cons_append] at hs
    rw [hs]; rfl
  | .str x, h =>
    refine ⟨1, ?_⟩
    obtain ⟨y, raw, hy, hs, rfl⟩ := scan_string h t
    rw [parseVal, next_blank hg, hy, next_cons _ (by decide), Option.bind_some]
    simp only [if_true]
    rw [hs]; rfl
  | .arr .nil, h =>
    obtain ⟨f, hf, rfl⟩ := h
    refine ⟨1, ?_⟩
    simp only [List.cons_append, List.append_assoc, List.nil_append]
    rw [parseVal, next_blank hg, next_cons _ (by decide), Option.bind_some]
    simp only [Char.reduceEq, if_false, if_true]
    rw [next_blank hf, next_cons _ (by decide), Option.bind_some]
    rfl
  | .arr (.cons v l), h =>
    obtain ⟨f, a, b, hf, ha, hb, rfl⟩ := h
    obtain ⟨n, hn⟩ := parseElems_text v l [] a b blank_nil ha hb t
    obtain ⟨c, q, rfl, hws, hc, -⟩ := text_head ha
    refine ⟨n + 1, ?_⟩
    simp only [List.cons_append, List.append_assoc]
    rw [parseVal, next_blank hg, next_cons _ (by decide), Option.bind_some]
    simp only [Char.reduceEq, if_false, if_true]
    rw [next_blank hf, next_cons _ hws, Option.bind_some]
    simp only [hc, if_false]
    simp only [List.nil_append, List.cons_append] at hn
    rw [hn]; rfl
  | .obj .nil, h =>
    obtain ⟨f, hf, rfl⟩ := h
    refine ⟨1, ?_⟩
    simp only [List.cons_append, List.append_assoc, List.nil_append]
    rw [parseVal, next_blank hg, next_cons _ (by decide), Option.bind_some]
    simp only [Char.reduceEq, if_false, if_true]
    rw [next_blank hf, next_cons _ (by decide), Option.bind_some]
    rfl
  | .obj (.cons k v m), h =>
    obtain ⟨f, q, h, i, a, b, hf, hq, hh, hi, ha, hb, rfl⟩ := h
    obtain ⟨n, hn⟩ := parseMembers_text k v m [] q h i a b blank_nil hq hh hi ha hb t
    obtain ⟨raw, hr, rfl⟩ := hq
    refine ⟨n + 1, ?_⟩
    simp only [List.cons_append, List.append_assoc, List.nil_append] at hn ⊢
    rw [parseVal, next_blank hg, next_cons _ (by decide), Option.bind_some]
    simp only [Char.reduceEq, if_false, if_true]
    rw [next_blank hf, next_cons _ (by decide), Option.bind_some]
    simp only [Char.reduceEq, if_false]
    rw [hn]; rfl
termination_by 2 * sizeOf v

theorem parseElems_text (v : JVal) (l : JList) (g a b : Str) (hg : JBlank g) (hv : JText jsonLayout v a)
    (hl : JElems jsonLayout l b) (t : Str) : ∃ n, parseElems n (g ++ (a ++ (b ++ t))) = some (.cons v l, t) := by
  obtain ⟨n, hn⟩ := parseVal_text v g a hg hv (b ++ t) (stop_elems hl t)
  match l, hl with
  | .nil, h =>
    obtain ⟨f, hf, rfl⟩ := h
    refine ⟨n + 1, ?_⟩
    rw [parseElems, hn, Option.bind_some]
    simp only [List.append_assoc, List.cons_append, List.nil_append]
    rw [next_blank hf, next_cons _ (by decide), Option.bind_some]
    simp
  | .cons w l', h =>
    obtain ⟨f, g', a', b', hf, hg', ha', hb', rfl⟩ := h
    obtain ⟨n', hn'⟩ := parseElems_text w l' g' a' b' hg' ha' hb' t
    have hv' := ((parse_fuel n).1 _ _ _ hn).2
    have hl' := ((parse_fuel n').2.2 _ _ _ hn').2
    let N := 2 * (g ++ (a ++ (f ++ ',' :: (g' ++ (a' ++ b')) ++ t))).length + 2
    refine ⟨N + 1, ?_⟩
    rw [parseElems, hv' N (by omega), Option.bind_some]
    simp only [List.append_assoc, List.cons_append, List.nil_append]
    rw [next_blank hf, next_cons _ (by decide), Option.bind_some]
    simp only [Char.reduceEq, if_false, if_true]
    rw [hl' N (by simp only [N, List.cons_append, List.append_assoc, List.length_append, List.length_cons]; omega)]
    rfl
termination_by 2 * (sizeOf v + sizeOf l) + 1
decreasing_by all_goals first | omega | (simp only [JList.cons.sizeOf_spec, JMembers.cons.sizeOf_spec]; omega)

theorem parseMembers_text (k : Str) (v : JVal) (m : JMembers) (g q h i a b : Str) (hg : JBlank g) (hq : JString k q) (hh : JBlank h)
    (hi : JBlank i) (hv : JText jsonLayout v a) (hm : JMembs jsonLayout m b) (t : Str) :
    ∃ n, parseMembers n (g ++ (q ++ (h ++ ':' :: (i ++ (a ++ (b ++ t)))))) = some (.cons k v m, t) := by
  obtain ⟨n, hn⟩ := parseVal_text v i a hi hv (b ++ t) (stop_membs hm t)
  obtain ⟨x, raw, hx, hs, rfl⟩ := scan_string hq (h ++ ':' :: (i ++ (a ++ (b ++ t))))
  match m, hm with
  | .nil, hm =>
    obtain ⟨f, hf, rfl⟩ := hm
    refine ⟨n + 1, ?_⟩
    rw [hx, parseMembers, next_blank hg, next_cons _ (by decide), Option.bind_some]
    simp only [if_true]
    rw [hs, Option.bind_some]
    simp only
    rw [next_blank hh, next_cons _ (by decide), Option.bind_some]
    simp only [if_true]
    rw [hn, Option.bind_some]
    simp only [List.append_assoc, List.cons_append, List.nil_append]
    rw [next_blank hf, next_cons _ (by decide), Option.bind_some]
    simp
  | .cons k' w m', hm =>
    obtain ⟨f, g', q', h', i', a', b', hf, hg', hq', hh', hi', ha', hb', rfl⟩ := hm
    obtain ⟨n', hn'⟩ := parseMembers_text k' w m' g' q' h' i' a' b' hg' hq' hh' hi' ha' hb' t
    have hv' := ((parse_fuel n).1 _ _ _ hn).2
    have hl' := ((parse_fuel n').2.1 _ _ _ hn').2
    let N := 2 * (i ++ (a ++ (f ++ ',' :: (g' ++ (q' ++ (h' ++ ':' :: (i' ++ (a' ++ b'))))) ++ t))).length + 2
    refine ⟨N + 1, ?_⟩
    rw [hx, parseMembers, next_blank hg, next_cons _ (by decide), Option.bind_some]
    simp only [if_true]
    rw [hs, Option.bind_some]
    simp only
    rw [next_blank hh, next_cons _ (by decide), Option.bind_some]
    simp only [if_true]
    rw [hv' N (by omega), Option.bind_some]
    simp only [List.append_assoc, List.cons_append]
    rw [next_blank hf, next_cons _ (by decide), Option.bind_some]
    simp only [Char.reduceEq, if_false, if_true]
    rw [hl' N (by simp only [N, List.cons_append, List.append_assoc, List.length_append, List.length_cons]; omega)]
    rfl
termination_by 2 * (sizeOf v + sizeOf m) + 1
decreasing_by all_goals first | omega | (simp only [JList.cons.sizeOf_spec, JMembers.cons.sizeOf_spec]; omega)
end

/-- Every text of a document is read as its value. -/
theorem parse_doc {v : JVal} {s : Str} (h : JsonDoc v s) : parse s = some v := by
  obtain ⟨g, a, h, hg, ha, hh, rfl⟩ := h
  have hst : Stop h := by
    cases h with
    | nil => simp [Stop]
    | cons x h => intro c hc; simp at hc; subst hc; exact .inr (.inr (.inr ((ws_iff _).2 (hh _ (by simp)))))
  obtain ⟨n, hn⟩ := parseVal_text v g a hg ha h hst
  have := ((parse_fuel n).1 _ _ _ hn).2 (2 * (g ++ (a ++ h)).length + 2) (by omega)
  unfold parse
  rw [this]
  have : skipWs h = [] := by
    have := skip_blank hh []
    rwa [List.append_nil] at this
  simp [this]

theorem expect_some {p s r : Str} (h : expect p s = some r) : s = p ++ r := by
  unfold expect at h
  split at h
  · rename_i hp
    cases h
    obtain ⟨x, rfl⟩ := List.isPrefixOf_iff_prefix.1 hp
    simp
  · cases h

/-- What is read as a value is a text of the value. -/
theorem text_of_parse (n : Nat) :
    (∀ s v r, parseVal n s = some (v, r) → ∃ g a, JBlank g ∧ JText jsonLayout v a ∧ s = g ++ (a ++ r)) ∧
    (∀ s m r, parseMembers n s = some (m, r) → ∃ k v m' g q h i a b, m = .cons k v m' ∧ JBlank g ∧ JString k q ∧ JBlank h ∧
      JBlank i ∧ JText jsonLayout v a ∧ JMembs jsonLayout m' b ∧ s = g ++ (q ++ (h ++ ':' :: (i ++ (a ++ (b ++ r)))))) ∧
    (∀ s l r, parseElems n s = some (l, r) → ∃ v l' g a b, l = .cons v l' ∧ JBlank g ∧ JText jsonLayout v a ∧
      JElems jsonLayout l' b ∧ s = g ++ (a ++ (b ++ r))) := by
  induction n with
  | zero => simp [parseVal, parseMembers, parseElems]
  | succ n ih =>
    obtain ⟨ihv, ihm, ihe⟩ := ih
    refine ⟨?_, ?_, ?_⟩
    · intro s v r h
      rw [parseVal] at h
      replace h := Option.bind_eq_some_iff.1 h
      obtain ⟨⟨c, x⟩, hc, h⟩ := h
      obtain ⟨g, hg, rfl, hcw⟩ := next_some hc
      dsimp only at h
      split at h
      · rename_i e; subst e
        obtain ⟨⟨raw, y⟩, hy, e⟩ := Option.map_eq_some_iff.1 h
        cases e
        obtain ⟨q, hq, e⟩ := string_of_scan hy
        exact ⟨g, q, hg, hq, by rw [e]⟩
      split at h
      · rename_i e; subst e
        replace h := Option.bind_eq_some_iff.1 h
        obtain ⟨⟨d, y⟩, hd, h⟩ := h
        obtain ⟨f, hf, rfl, hdw⟩ := next_some hd
        dsimp only at h
        split at h
        · rename_i e; subst e; cases h
          exact ⟨g, _, hg, ⟨f, hf, rfl⟩, by simp⟩
        · obtain ⟨⟨m, z⟩, hm, e⟩ := Option.map_eq_some_iff.1 h
          cases e
          obtain ⟨k, v, m', g', q, h', i, a, b, rfl, hg', hq, hh, hi, ha, hb, e⟩ := ihm _ _ _ hm
          exact ⟨g, _, hg, ⟨f ++ g', q, h', i, a, b, blank_append hf hg', hq, hh, hi, ha, hb, rfl⟩, by rw [e]; simp⟩
      split at h
      · rename_i e; subst e
        replace h := Option.bind_eq_some_iff.1 h
        obtain ⟨⟨d, y⟩, hd, h⟩ := h
        obtain ⟨f, hf, rfl, hdw⟩ := next_some hd
        dsimp only at h
        split at h
        · rename_i e; subst e; cases h
          exact ⟨g, _, hg, ⟨f, hf, rfl⟩, by simp⟩
        · obtain ⟨⟨m, z⟩, hm, e⟩ := Option.map_eq_some_iff.1 h
          cases e
          obtain ⟨v, l', g', a, b, rfl, hg', ha, hb, e⟩ := ihe _ _ _ hm
          exact ⟨g, _, hg, ⟨f ++ g', a, b, blank_append hf hg', ha, hb, rfl⟩, by rw [e]; simp⟩
      split at h
      · rename_i e; subst e
        obtain ⟨y, hy, e⟩ := Option.map_eq_some_iff.1 h
        cases e
        exact ⟨g, g!"true", hg, rfl, by rw [expect_some hy]; rfl⟩
      split at h
      · rename_i e; subst e
        obtain ⟨y, hy, e⟩ := Option.map_eq_some_iff.1 h
        cases e
        exact ⟨g, g!"false", hg, rfl, by rw [expect_some hy]; rfl⟩
      split at h
      · rename_i e; subst e
        obtain ⟨y, hy, e⟩ := Option.map_eq_some_iff.1 h
        cases e
        exact ⟨g, g!"null", hg, rfl, by rw [expect_some hy]; rfl⟩
      · obtain ⟨⟨l, y⟩, hy, e⟩ := Option.map_eq_some_iff.1 h
        cases e
        obtain ⟨hl, e⟩ := number_of_scan hy
        exact ⟨g, l, hg, ⟨hl, rfl⟩, by rw [e]⟩
    · intro s m r h
      rw [parseMembers] at h
      replace h := Option.bind_eq_some_iff.1 h
      obtain ⟨⟨c, x⟩, hc, h⟩ := h
      obtain ⟨g, hg, rfl, hcw⟩ := next_some hc
      dsimp only at h
      split at h
      · rename_i e; subst e
        replace h := Option.bind_eq_some_iff.1 h
        obtain ⟨⟨raw, y⟩, hy, h⟩ := h
        obtain ⟨q, hq, e⟩ := string_of_scan hy
        replace h := Option.bind_eq_some_iff.1 h
        obtain ⟨⟨c, z⟩, hc, h⟩ := h
        obtain ⟨f, hf, rfl, hcw⟩ := next_some hc
        dsimp only at h
        split at h
        · rename_i e'; subst e'
          replace h := Option.bind_eq_some_iff.1 h
          obtain ⟨⟨v, w⟩, hv, h⟩ := h
          obtain ⟨i, a, hi, ha, rfl⟩ := ihv _ _ _ hv
          replace h := Option.bind_eq_some_iff.1 h
          obtain ⟨⟨d, u⟩, hd, h⟩ := h
          obtain ⟨j, hj, rfl, hdw⟩ := next_some hd
          dsimp only at h
          split at h
          · rename_i e'; subst e'; cases h
            exact ⟨_, v, .nil, g, q, f, i, a, j ++ ['}'], rfl, hg, hq, hf, hi, ha, ⟨j, hj, rfl⟩, by rw [e]; simp⟩
          · split at h
            · rename_i e'; subst e'
              obtain ⟨⟨m', y⟩, hy, e'⟩ := Option.map_eq_some_iff.1 h
              cases e'
              obtain ⟨k', v', m'', g', q', h', i', a', b', rfl, hg', hq', hh', hi', ha', hb', e''⟩ := ihm _ _ _ hy
              subst e''
              exact ⟨_, v, _, g, q, f, i, a, _, rfl, hg, hq, hf, hi, ha,
                ⟨j, g', q', h', i', a', b', hj, hg', hq', hh', hi', ha', hb', rfl⟩, by rw [e]; simp⟩
            · cases h
        · cases h
      · cases h
    · intro s l r h
      rw [parseElems] at h
      replace h := Option.bind_eq_some_iff.1 h
      obtain ⟨⟨v, w⟩, hv, h⟩ := h
      obtain ⟨g, a, hg, ha, rfl⟩ := ihv _ _ _ hv
      replace h := Option.bind_eq_some_iff.1 h
      obtain ⟨⟨d, u⟩, hd, h⟩ := h
      obtain ⟨j, hj, rfl, hdw⟩ := next_some hd
      dsimp only at h
      split at h
      · rename_i e'; subst e'; cases h
        exact ⟨v, .nil, g, a, j ++ [']'], rfl, hg, ha, ⟨j, hj, rfl⟩, by simp⟩
      · split at h
        · rename_i e'; subst e'
          obtain ⟨⟨m', y⟩, hy, e'⟩ := Option.map_eq_some_iff.1 h
          cases e'
          obtain ⟨v', l'', g', a', b', rfl, hg', ha', hb', e''⟩ := ihe _ _ _ hy
          subst e''
          exact ⟨v, _, g, a, _, rfl, hg, ha, ⟨j, g', a', b', hj, hg', ha', hb', rfl⟩, by simp⟩
        · cases h

/-- What is read as a document is a text of its value. -/
theorem doc_of_parse {v : JVal} {s : Str} (h : parse s = some v) : JsonDoc v s := by
  unfold parse at h
  split at h
  · rename_i w r hp
    split at h
    · rename_i hr
      cases h
      obtain ⟨g, a, hg, ha, rfl⟩ := (text_of_parse _).1 _ _ _ hp
      exact ⟨g, a, r, hg, ha, fun c hc => (ws_iff c).1 (all_of_dropWhile_nil hr c hc), rfl⟩
    · cases h
  · cases h

end Osv.JText
