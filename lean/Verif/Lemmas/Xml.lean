import Verif.Spec.Xml
import Verif.Lemmas.Str
/-! # The XML reader reads what is written -/
namespace Osv.Xml
open Osv Str Spec Spec.Markup

theorem cut?_at {i : Str} {x : Char} {a b : Str} (h : Without (i ++ [x]) (a ++ i)) : cut? (i ++ [x]) (a ++ (i ++ [x]) ++ b) = some (a, b) := by
  cases hc : cut? (i ++ [x]) (a ++ (i ++ [x]) ++ b) with
  | none => exact absurd rfl (cut?_none_iff.1 hc a b)
  | some p =>
    obtain ⟨a', b'⟩ := p
    have he := cut?_some hc
    have hl := cut?_first hc a b rfl
    by_cases hlt : a'.length = a.length
    · rw [List.append_assoc a, List.append_assoc a'] at he
      obtain ⟨h1, h2⟩ := List.append_inj he hlt.symm
      have := List.append_cancel_left h2
      rw [h1, this]
    · exfalso
      have e1 : a ++ i ++ ([x] ++ b) = a' ++ (i ++ [x]) ++ b' := by rw [← he]; simp
      have hp : (a' ++ (i ++ [x])).length ≤ (a ++ i).length := by simp; omega
      have h3 := congrArg (List.take (a ++ i).length) e1
      rw [List.take_left, List.take_append, List.take_of_length_le hp] at h3
      exact h a' _ h3

theorem without_init {i : Str} {x : Char} (hx : x ∉ i) {s : Str} (h : Without (i ++ [x]) s) : Without (i ++ [x]) (s ++ i) := by
  intro a b he
  by_cases hl : (a ++ (i ++ [x])).length ≤ s.length
  · have h3 := congrArg (List.take s.length) he
    rw [List.take_left, List.take_append, List.take_of_length_le hl] at h3
    exact h a _ h3
  · have h1 : (s ++ i)[(a ++ i).length]? = some x := by
      rw [he, show a ++ (i ++ [x]) ++ b = (a ++ i) ++ (x :: b) by simp]
      simp
    rw [List.getElem?_append_right (by simp at hl ⊢; omega)] at h1
    exact hx (List.mem_of_getElem? h1)

theorem blank_all {w : Str} (h : Blank w) : w.all isSpace = true := by
  rw [List.all_eq_true]
  intro c hc
  rcases h c hc with h | h | h | h <;> subst h <;> rfl

theorem skip {w : Str} (h : Blank w) {c : Char} (hc : isSpace c = false) (r : Str) : (w ++ c :: r).dropWhile isSpace = c :: r := by
  rw [dropWhile_all_append _ _ _ (blank_all h), List.dropWhile_cons, hc]; rfl

theorem legal_of {c : Char} (h : XmlChar c) : legal c = true := by
  unfold legal
  rcases h with h | h | ⟨h1, h2⟩ | ⟨h1, h2⟩
  · simp [h]
  · simp [h]
  · have : ' ' ≤ c := h1
    simp [this, h2]
  · simp [h1, h2]

theorem nameStart_of {c : Char} (h : NameStart c) : nameStart c = true ∧ nameChar c = true ∧ c ≠ ':' := by
  rcases h with ⟨h1, h2⟩ | ⟨h1, h2⟩ | h
  · refine ⟨by simp [nameStart, isLetter, h1, h2], by simp [nameChar, isLetter, h1, h2], ?_⟩
    rintro rfl; revert h1; decide
  · refine ⟨by simp [nameStart, isLetter, h1, h2], by simp [nameChar, isLetter, h1, h2], ?_⟩
    rintro rfl; revert h1 h2; decide
  · subst h; decide

theorem simple_chars {n : Str} (h : SimpleName n) : (∀ c ∈ n, nameChar c = true ∧ c ≠ ':') ∧ ∃ c r, n = c :: r ∧ nameStart c = true := by
  obtain ⟨c, r, rfl, h1, h2⟩ := h
  have hs := nameStart_of h1
  refine ⟨?_, c, r, rfl, hs.1⟩
  intro d hd
  rcases List.mem_cons.1 hd with rfl | hd
  · exact hs.2
  · rcases h2 d hd with h | ⟨h1, h2⟩ | h | h
    · exact (nameStart_of h).2
    · refine ⟨by simp [nameChar, isDigit, h1, h2], ?_⟩
      rintro rfl; revert h2; decide
    · subst h; decide
    · subst h; decide

/-- The text does not continue a name. -/
def Stops (r : Str) : Prop := ∀ c ∈ r.head?, nameChar c = false

theorem span_name {n r : Str} (h : ∀ c ∈ n, nameChar c = true) (hr : Stops r) :
    (n ++ r).takeWhile nameChar = n ∧ (n ++ r).dropWhile nameChar = r := by
  have hd : (n ++ r).dropWhile nameChar = r := by
    rw [dropWhile_all_append _ _ _ (by rwa [List.all_eq_true]), dropWhile_self _ _ hr]
  refine ⟨?_, hd⟩
  have := List.takeWhile_append_dropWhile (p := nameChar) (l := n ++ r)
  rw [hd] at this
  exact List.append_cancel_right this

theorem read_name {n r : Str} (h : ∀ c ∈ n, nameChar c = true) (hs : ∃ c r, n = c :: r ∧ nameStart c = true) (hr : Stops r) :
    name (n ++ r) = some (n, r) := by
  unfold name
  rw [(span_name h hr).1, (span_name h hr).2]
  obtain ⟨c, t, rfl, hc⟩ := hs
  simp [hc]

theorem filter_colon {n : Str} (h : ':' ∉ n) : n.filter (· == ':') = [] := by
  rw [List.filter_eq_nil_iff]
  rintro c hc he
  rw [eq_of_beq he] at hc
  exact h hc

theorem qname_chars {q l : Str} (h : QName q l) : (∀ c ∈ q, nameChar c = true) ∧ (∃ c r, q = c :: r ∧ nameStart c = true) ∧
    (q.filter (· == ':')).length ≤ 1 ∧ localName q = l := by
  cases h with
  | plain h =>
    obtain ⟨h1, h2⟩ := simple_chars h
    have hc : ':' ∉ q := fun hm => (h1 _ hm).2 rfl
    refine ⟨fun c hc => (h1 c hc).1, h2, by rw [filter_colon hc]; simp, ?_⟩
    unfold localName
    rw [cut?_char_none ':' q hc]
  | @prefixed p n hp hn =>
    obtain ⟨p1, c, r, rfl, p2⟩ := simple_chars hp
    obtain ⟨n1, d, t, rfl, n2⟩ := simple_chars hn
    have hpc : ':' ∉ c :: r := fun hm => (p1 _ hm).2 rfl
    have hnc : ':' ∉ d :: t := fun hm => (n1 _ hm).2 rfl
    refine ⟨?_, ⟨c, r ++ g!":" ++ d :: t, by simp, p2⟩, ?_, ?_⟩
    · intro x hx
      rcases List.mem_append.1 hx with hx | hx
      · rcases List.mem_append.1 hx with hx | hx
        · exact (p1 x hx).1
        · rw [List.mem_singleton.1 hx]; rfl
      · exact (n1 x hx).1
    · rw [List.filter_append, List.filter_append, filter_colon hpc, filter_colon hnc]; decide
    · unfold localName
      rw [show c :: r ++ g!":" ++ d :: t = (c :: r) ++ ':' :: (d :: t) by simp, cut?_char ':' _ _ hpc]
      simp

theorem read_qname {q l r : Str} (h : QName q l) (hr : Stops r) : qname (q ++ r) = some (q, r) := by
  obtain ⟨h1, h2, h3, -⟩ := qname_chars h
  unfold qname
  rw [read_name h1 h2 hr]
  dsimp only
  rw [if_pos h3]

theorem number_append (s : Str) (c : Char) : number 10 (s ++ [c]) = number 10 s * 10 + hexVal c := by
  simp [number]

theorem digit_val {c : Char} {n : Nat} (h : c.toNat = 48 + n) (hn : n ≤ 9) : isDigit c = true ∧ hexVal c = n := by
  have h1 : '0' ≤ c := by
    show (48 : Nat) ≤ c.toNat; omega
  have h2 : c ≤ '9' := by
    show c.toNat ≤ (57 : Nat); omega
  have hd : isDigit c = true := by simp [isDigit, h1, h2]
  refine ⟨hd, ?_⟩
  unfold hexVal
  rw [if_pos hd]; omega

theorem decimal_number {s : Str} {n : Nat} (h : Decimal s n) : s ≠ [] ∧ s.all isDigit = true ∧ number 10 s = n := by
  induction h with
  | one h hn =>
    obtain ⟨h1, h2⟩ := digit_val h hn
    exact ⟨by simp, by simp [h1], by simp [number, h2]⟩
  | more _ h hn ih =>
    obtain ⟨h1, h2⟩ := digit_val h hn
    refine ⟨by simp, ?_, ?_⟩
    · rw [List.all_append, ih.2.1]; simp [h1]
    · rw [number_append, ih.2.2, h2]; omega

theorem hex_digit {c : Char} {n : Nat} (h : HexDigit c n) : isHex c = true ∧ hexVal c = n := by
  have hl : n < 16 := by
    rcases h with h | h <;> simpa using (List.getElem?_eq_some_iff.1 h).1
  have : ∀ n < 16, ∀ c, (g!"0123456789abcdef"[n]? = some c ∨ g!"0123456789ABCDEF"[n]? = some c) → isHex c = true ∧ hexVal c = n := by
    intro n hn c hc
    have key : ∀ n < 16, (∀ c ∈ g!"0123456789abcdef"[n]?, isHex c = true ∧ hexVal c = n) ∧
        (∀ c ∈ g!"0123456789ABCDEF"[n]?, isHex c = true ∧ hexVal c = n) := by decide
    rcases hc with hc | hc
    · exact (key n hn).1 c hc
    · exact (key n hn).2 c hc
  exact this n hl c h

theorem hex_number {s : Str} {n : Nat} (h : Hexadecimal s n) : s ≠ [] ∧ s.all isHex = true ∧ number 16 s = n := by
  induction h with
  | one h =>
    obtain ⟨h1, h2⟩ := hex_digit h
    exact ⟨by simp, by simp [h1], by simp [number, h2]⟩
  | @more s m c n _ h ih =>
    obtain ⟨h1, h2⟩ := hex_digit h
    refine ⟨by simp, ?_, ?_⟩
    · rw [List.all_append, ih.2.1]; simp [h1]
    · have : number 16 (s ++ [c]) = number 16 s * 16 + hexVal c := by simp [number]
      rw [this, ih.2.2, h2]; omega

theorem runeOf_toNat (c : Char) : runeOf c.toNat = some c := by
  have hv := c.valid
  have h : c.toNat < 0xD800 ∨ (0xDFFF < c.toNat ∧ c.toNat < 0x110000) := by
    rcases hv with h | ⟨h1, h2⟩
    · exact .inl h
    · exact .inr ⟨h1, h2⟩
  unfold runeOf
  rw [if_pos (by omega)]
  have : (decide (0xD800 ≤ c.toNat) && decide (c.toNat ≤ 0xDFFF)) = false := by
    rw [Bool.and_eq_false_iff]; simp; omega
  rw [this]
  simp

theorem digit_ne {c : Char} (h : isDigit c = true) : c ≠ ';' ∧ c ≠ 'x' := by
  constructor <;> rintro rfl <;> revert h <;> decide

theorem ref_entity {c : Char} {r : Str} (h : Ref c r) : ∃ body, r = '&' :: (body ++ g!";") ∧ ';' ∉ body ∧ entity body = some c ∧
    legal c = true := by
  cases h with
  | lt => exact ⟨g!"lt", rfl, by decide, rfl, by decide⟩
  | gt => exact ⟨g!"gt", rfl, by decide, rfl, by decide⟩
  | amp => exact ⟨g!"amp", rfl, by decide, rfl, by decide⟩
  | apos => exact ⟨g!"apos", rfl, by decide, rfl, by decide⟩
  | quot => exact ⟨g!"quot", rfl, by decide, rfl, by decide⟩
  | @code _ ds hd hc =>
    obtain ⟨h1, h2, h3⟩ := decimal_number hd
    have hall := List.all_eq_true.1 h2
    refine ⟨'#' :: ds, by simp, ?_, ?_, ?_⟩
    · intro hm
      rcases List.mem_cons.1 hm with hm | hm
      · cases hm
      · exact (digit_ne (hall _ hm)).1 rfl
    · unfold entity
      rw [if_neg (by simp), if_neg (by simp), if_neg (by simp), if_neg (by simp), if_neg (by simp)]
      have : ∀ x r, ds = x :: r → x ≠ 'x' := by
        rintro x r rfl
        exact (digit_ne (hall x (by simp))).2
      split
      · rename_i he
        injection he with _ he
        exact absurd rfl (this _ _ he)
      · rename_i he
        injection he with _ he
        subst he
        rw [h2, h3, runeOf_toNat]
        simp [h1]
      · rename_i hn
        exact absurd rfl (hn ds)
    · rcases hc with hc | hc
      · exact legal_of hc
      · subst hc; decide
  | @hex _ ds hd hc =>
    obtain ⟨h1, h2, h3⟩ := hex_number hd
    have hall := List.all_eq_true.1 h2
    refine ⟨'#' :: 'x' :: ds, by simp, ?_, ?_, ?_⟩
    · intro hm
      rcases List.mem_cons.1 hm with hm | hm
      · cases hm
      rcases List.mem_cons.1 hm with hm | hm
      · cases hm
      · exact absurd (hall _ hm) (by decide)
    · unfold entity
      rw [if_neg (by simp), if_neg (by simp), if_neg (by simp), if_neg (by simp), if_neg (by simp)]
      show (if (decide (ds ≠ []) && ds.all isHex) = true then runeOf (number 16 ds) else none) = some c
      rw [h2, h3, runeOf_toNat]
      simp [h1]
    · rcases hc with hc | hc
      · exact legal_of hc
      · subst hc; decide

theorem xmlChar_cr : ¬ XmlChar '\r' := by unfold XmlChar; decide

theorem unescape_char (fuel : Nat) {c : Char} (r : Str) (h1 : c ≠ '&') (h2 : c ≠ '\r') (hl : legal c = true) :
    unescape (fuel + 1) (c :: r) = (unescape fuel r).map (c :: ·) := by
  conv => lhs; unfold unescape
  split <;> simp_all

theorem unescape_ref (fuel : Nat) (body r : Str) (c : Char) (h1 : ';' ∉ body) (he : entity body = some c) (hl : legal c = true) :
    unescape (fuel + 1) ('&' :: (body ++ g!";" ++ r)) = (unescape fuel r).map (c :: ·) := by
  have : body ++ g!";" ++ r = body ++ ';' :: r := by simp
  rw [this, unescape, cut?_char ';' body r h1]
  dsimp only
  rw [he]
  dsimp only
  rw [if_pos hl]

theorem unescape_written {s t : Str} (h : Written s t) (fuel : Nat) (hf : t.length < fuel) : unescape fuel t = some s := by
  induction h generalizing fuel with
  | nil =>
    cases fuel with
    | zero => simp at hf
    | succ n => rfl
  | @char c s t hc h1 h2 _ ih =>
    cases fuel with
    | zero => simp at hf
    | succ n =>
      have hcr : c ≠ '\r' := by rintro rfl; exact xmlChar_cr hc
      rw [unescape_char n t h2 hcr (legal_of hc), ih n (by simpa using hf)]
      rfl
  | line _ ih =>
    cases fuel with
    | zero => simp at hf
    | succ n =>
      rw [List.cons_append, List.cons_append, List.nil_append, unescape, ih n (by simp at hf; omega)]
      rfl
  | ref hr _ ih =>
    obtain ⟨body, rfl, h1, h2, h3⟩ := ref_entity hr
    cases fuel with
    | zero => simp at hf
    | succ n =>
      rw [List.cons_append, unescape_ref n body _ _ h1 h2 h3, ih n (by simp at hf; omega)]
      rfl

theorem ref_no_lt {c : Char} {r : Str} (h : Ref c r) : '<' ∉ r := by
  cases h with
  | code hd _ =>
    obtain ⟨-, h2, -⟩ := decimal_number hd
    have hall := List.all_eq_true.1 h2
    intro hm
    rcases List.mem_append.1 hm with hm | hm
    · rcases List.mem_append.1 hm with hm | hm
      · simp at hm
      · exact absurd (hall _ hm) (by decide)
    · simp at hm
  | hex hd _ =>
    obtain ⟨-, h2, -⟩ := hex_number hd
    have hall := List.all_eq_true.1 h2
    intro hm
    rcases List.mem_append.1 hm with hm | hm
    · rcases List.mem_append.1 hm with hm | hm
      · simp at hm
      · exact absurd (hall _ hm) (by decide)
    · simp at hm
  | _ => decide

theorem written_no_lt {s t : Str} (h : Written s t) : '<' ∉ t := by
  induction h with
  | nil => simp
  | char _ h1 _ _ ih => simp [Ne.symm h1, ih]
  | line _ ih => simp [ih]
  | ref hr _ ih =>
    intro hm
    rcases List.mem_append.1 hm with hm | hm
    · exact ref_no_lt hr hm
    · exact ih hm

theorem attrs_end (n : Nat) {w : Str} (hw : Blank w) (r : Str) :
    attrs (n + 1) (w ++ '>' :: r) = some (false, r) ∧ attrs (n + 1) (w ++ '/' :: '>' :: r) = some (true, r) := by
  constructor
  · unfold attrs; rw [skip hw (by decide)]; rfl
  · unfold attrs; rw [skip hw (by decide)]; rfl

theorem stops_blank {w : Str} (hw : Blank w) {c : Char} (hc : nameChar c = false) (r : Str) : Stops (w ++ c :: r) := by
  intro d hd
  cases w with
  | nil => cases hd; exact hc
  | cons x w =>
    cases hd
    rcases hw d (by simp) with h | h | h | h <;> subst h <;> rfl

theorem nameChar_not_space {c : Char} (h : nameChar c = true) : isSpace c = false ∧ c ≠ '/' ∧ c ≠ '>' := by
  refine ⟨?_, ?_, ?_⟩
  · cases hs : isSpace c with
    | false => rfl
    | true =>
      simp only [isSpace, Bool.or_eq_true, beq_iff_eq] at hs
      rcases hs with ((rfl | rfl) | rfl) | rfl <;> revert h <;> decide
  · rintro rfl; revert h; decide
  · rintro rfl; revert h; decide

theorem read_attrs {a : Str} (h : Attributes a) {w : Str} (hw : Blank w) (r : Str) (n : Nat) (hn : a.length < n) :
    attrs n (a ++ (w ++ '>' :: r)) = some (false, r) ∧ attrs n (a ++ (w ++ '/' :: '>' :: r)) = some (true, r) := by
  induction h generalizing n with
  | nil =>
    cases n with
    | zero => simp at hn
    | succ n => exact attrs_end n hw r
  | @cons w0 nm l w1 w2 v t rest q hw0 _ hq hw1 hw2 hqq ht hnq _ ih =>
    cases n with
    | zero => simp at hn
    | succ n =>
      obtain ⟨i1, i2⟩ := ih n (by simp at hn; omega)
      have key : ∀ u b, attrs n (rest ++ u) = some (b, r) →
          attrs (n + 1) (w0 ++ nm ++ w1 ++ g!"=" ++ w2 ++ [q] ++ t ++ [q] ++ rest ++ u) = some (b, r) := by
        intro u b hu
        have e : w0 ++ nm ++ w1 ++ g!"=" ++ w2 ++ [q] ++ t ++ [q] ++ rest ++ u =
            w0 ++ (nm ++ (w1 ++ '=' :: (w2 ++ q :: (t ++ q :: (rest ++ u))))) := by simp
        rw [e]
        obtain ⟨c1, ⟨c, nr, hc, hc2⟩, -, -⟩ := qname_chars hq
        have hcn : nameChar c = true := c1 c (by rw [hc]; simp)
        obtain ⟨s1, s2, s3⟩ := nameChar_not_space hcn
        have hsk : (w0 ++ (nm ++ (w1 ++ '=' :: (w2 ++ q :: (t ++ q :: (rest ++ u)))))).dropWhile isSpace =
            nm ++ (w1 ++ '=' :: (w2 ++ q :: (t ++ q :: (rest ++ u)))) := by
          rw [hc, List.cons_append, skip hw0 s1]
        have hqn := read_qname hq (stops_blank hw1 (c := '=') (by decide) (w2 ++ q :: (t ++ q :: (rest ++ u))))
        have hsq : isSpace q = false := by rcases hqq with rfl | rfl <;> rfl
        unfold attrs
        rw [hsk]
        split
        · rename_i he; rw [hc] at he; injection he with he; exact absurd he s2
        · rename_i he; rw [hc] at he; injection he with he; exact absurd he s2
        · rename_i he; rw [hc] at he; injection he with he; exact absurd he s3
        · rw [hqn]
          dsimp only
          rw [skip hw1 (by decide)]
          simp only
          rw [skip hw2 hsq]
          simp only
          rw [if_pos hqq, cut?_char q t _ hnq]
          dsimp only
          have hlt : t.any (· == '<') = false := by
            rw [List.any_eq_false]
            intro x hx he
            rw [eq_of_beq he] at hx
            exact written_no_lt ht hx
          rw [hlt, unescape_written ht _ (by omega)]
          exact hu
      exact ⟨key _ _ i1, key _ _ i2⟩

theorem token_stop {q l w : Str} (hq : QName q l) (hw : Blank w) (r : Str) :
    token ('<' :: '/' :: (q ++ (w ++ '>' :: r))) = some (.stop q, r) := by
  show markup ('/' :: (q ++ (w ++ '>' :: r))) = _
  rw [markup, read_qname hq (stops_blank hw (by decide) r)]
  dsimp only
  rw [skip hw (by decide)]
  rfl

theorem stops_attrs {a w : Str} (ha : Attributes a) (hw : Blank w) {c : Char} (hc : nameChar c = false) (r : Str) : Stops (a ++ (w ++ c :: r)) := by
  cases ha with
  | nil => exact stops_blank hw hc r
  | @cons w0 nm l w1 w2 v t rest q hw0 hne hq hw1 hw2 hqq ht hnq _ =>
    cases w0 with
    | nil => exact absurd rfl hne
    | cons x w0 =>
      intro d hd
      have hd : d = x := by simpa using hd.symm
      rcases hw0 d (by simp [hd]) with h | h | h | h <;> subst h <;> rfl

theorem token_start {q l a w : Str} (hq : QName q l) (ha : Attributes a) (hw : Blank w) (r : Str) :
    token ('<' :: (q ++ (a ++ (w ++ '>' :: r)))) = some (.start q false, r) ∧
    token ('<' :: (q ++ (a ++ (w ++ '/' :: '>' :: r)))) = some (.start q true, r) := by
  have key : ∀ u b, Stops u → attrs (u.length + 1) u = some (b, r) → token ('<' :: (q ++ u)) = some (.start q b, r) := by
    intro u b hs hu
    show markup (q ++ u) = _
    have hqn := read_qname hq hs
    obtain ⟨c1, ⟨c, nr, hc, hc2⟩, -, -⟩ := qname_chars hq
    have hcn : nameChar c = true := c1 c (by rw [hc]; simp)
    have h1 : c ≠ '/' := by rintro rfl; revert hcn; decide
    have h2 : c ≠ '?' := by rintro rfl; revert hcn; decide
    have h3 : c ≠ '!' := by rintro rfl; revert hcn; decide
    unfold markup
    split
    · rename_i he; rw [hc] at he; injection he with he; exact absurd he h1
    · rename_i he; rw [hc] at he; injection he with he; exact absurd he h2
    · rename_i he; rw [hc] at he; injection he with he; exact absurd he h3
    · rename_i he; rw [hc] at he; injection he with he; exact absurd he h3
    · rename_i he; rw [hc] at he; injection he with he; exact absurd he h3
    · rename_i he; rw [hc] at he; injection he with he; exact absurd he h3
    · rw [hqn]
      dsimp only
      rw [hu]
      rfl
  constructor
  · refine key _ _ (stops_attrs ha hw (by decide) r) (read_attrs ha hw r _ (by simp; omega)).1
  · refine key _ _ (stops_attrs ha hw (by decide) _) (read_attrs ha hw r _ (by simp; omega)).2

theorem token_comment {t : Str} (h : Comment t) (r : Str) : token (t ++ r) = some (.other, r) := by
  obtain ⟨c, hc, rfl⟩ := h
  have e : g!"<!--" ++ c ++ g!"-->" ++ r = '<' :: '!' :: '-' :: '-' :: (c ++ (g!"-" ++ ['-']) ++ '>' :: r) := by simp
  rw [e]
  show markup ('!' :: '-' :: '-' :: (c ++ (g!"-" ++ ['-']) ++ '>' :: r)) = _
  have hcut := cut?_at (i := g!"-") (x := '-') (b := '>' :: r) hc
  unfold markup
  simp only
  rw [show g!"--" = g!"-" ++ ['-'] from rfl, hcut]
  rfl

theorem cut?_mark {c r : Str} (h : Without g!"?>" c) : cut? g!"?>" (c ++ g!"?>" ++ r) = some (c, r) :=
  cut?_at (i := g!"?") (x := '>') (without_init (by decide) h)

theorem without_suffix {sub a b : Str} (h : Without sub (a ++ b)) : Without sub b := by
  rintro x y rfl
  exact h (a ++ x) y (by simp)

theorem token_instruction {t : Str} (h : Instruction t) (r : Str) : token (t ++ r) = some (.other, r) := by
  obtain ⟨n, c, hn, hx, hc, hh, rfl⟩ := h
  have e : g!"<?" ++ n ++ c ++ g!"?>" ++ r = '<' :: '?' :: (n ++ (c ++ g!"?>" ++ r)) := by simp
  rw [e]
  obtain ⟨h1, h2⟩ := simple_chars hn
  have hst : Stops (c ++ g!"?>" ++ r) := by
    intro d hd
    cases c with
    | nil => cases hd; rfl
    | cons x c => cases hd; rw [hh d (by simp)]; rfl
  show markup ('?' :: (n ++ (c ++ g!"?>" ++ r))) = _
  rw [markup, read_name (fun c hc => (h1 c hc).1) h2 hst]
  dsimp only
  obtain ⟨a, b, hab, hd⟩ : ∃ a b, c = a ++ b ∧ (c ++ g!"?>" ++ r).dropWhile isSpace = b ++ g!"?>" ++ r := by
    clear e hc hh hst
    induction c with
    | nil => exact ⟨[], [], rfl, rfl⟩
    | cons x c ih =>
      by_cases hs : isSpace x = true
      · obtain ⟨a, b, rfl, hd⟩ := ih
        refine ⟨x :: a, b, rfl, ?_⟩
        rw [← hd]
        simp [hs]
      · refine ⟨[], x :: c, rfl, ?_⟩
        simp [hs]
  rw [hd, cut?_mark (without_suffix (hab ▸ hc))]
  simp [hx]

theorem uniform_self (s : Str) (h : ∀ c ∈ s, XmlChar c) : uniform s = some s := by
  induction s with
  | nil => rfl
  | cons c s ih =>
    have hc := h c (by simp)
    have hcr : c ≠ '\r' := by rintro rfl; exact xmlChar_cr hc
    have i := ih fun c h' => h c (by simp [h'])
    have hl := legal_of hc
    unfold uniform
    split <;> simp_all

theorem token_cdata {s : Str} (h : ∀ c ∈ s, XmlChar c) (hs : Without g!"]]>" s) (r : Str) :
    token (g!"<![CDATA[" ++ s ++ g!"]]>" ++ r) = some (.text s, r) := by
  show markup ('!' :: '[' :: (g!"CDATA[" ++ s ++ g!"]]>" ++ r)) = _
  unfold markup
  simp only
  have e : g!"CDATA[" ++ s ++ g!"]]>" ++ r = g!"CDATA[" ++ (s ++ g!"]]>" ++ r) := by simp
  rw [e, hasPrefix_append, if_pos rfl]
  rw [show (g!"CDATA[" ++ (s ++ g!"]]>" ++ r)).drop 6 = s ++ g!"]]>" ++ r from rfl,
    show cut? g!"]]>" (s ++ g!"]]>" ++ r) = some (s, r) from cut?_at (i := g!"]]") (x := '>') (without_init (by decide) hs)]
  dsimp only
  rw [uniform_self s h]
  rfl

theorem token_text {s t u : Str} (h : Written s t) (hne : t ≠ []) (hw : Without g!"]]>" t) (hu : u = [] ∨ ∃ r, u = '<' :: r) :
    token (t ++ u) = some (.text s, u) := by
  have hlt := written_no_lt h
  have hall : t.all (· != '<') = true := by
    rw [List.all_eq_true]
    intro c hc
    simp only [bne_iff_ne]
    rintro rfl
    exact hlt hc
  have hd : (t ++ u).dropWhile (· != '<') = u := by
    rw [dropWhile_all_append _ _ _ hall, dropWhile_self]
    intro c hc
    rcases hu with rfl | ⟨r, rfl⟩
    · cases hc
    · cases hc; rfl
  have ht : (t ++ u).takeWhile (· != '<') = t := by
    have := List.takeWhile_append_dropWhile (p := (· != '<')) (l := t ++ u)
    rw [hd] at this
    exact List.append_cancel_right this
  have hc : contains t g!"]]>" = false := by
    rw [Bool.eq_false_iff, ne_eq, contains_iff]
    rintro ⟨a, b, e⟩
    exact hw a b e
  cases t with
  | nil => exact absurd rfl hne
  | cons c t =>
    have hcl : c ≠ '<' := by rintro rfl; simp at hlt
    unfold token
    split
    · rename_i he; cases he
    · rename_i he; injection he with he; exact absurd he hcl
    · dsimp only
      rw [ht, hd, hc, unescape_written h _ (by omega)]
      rfl

theorem read_content {ks : List XNode} {t : Str} (h : Content ks t) {q l w : Str} (hq : QName q l) (hw : Blank w) (more : Str) (n : Nat)
    (hn : (t ++ ('<' :: '/' :: (q ++ (w ++ '>' :: more)))).length ≤ n) :
    kids n (t ++ ('<' :: '/' :: (q ++ (w ++ '>' :: more)))) = some (ks, q, more) := by
  induction h generalizing n q l w more with
  | nil =>
    cases n with
    | zero => simp at hn
    | succ n => rw [List.nil_append, kids, token_stop hq hw]
  | @text s t u rest ht hne hwo hu _ ih =>
    cases n with
    | zero => simp at hn
    | succ n =>
      rw [List.append_assoc] at hn ⊢
      rw [kids, token_text ht hne hwo]
      · dsimp only
        rw [ih hq hw more n]
        · rfl
        · have : 0 < t.length := List.length_pos_iff.2 hne
          simp at hn ⊢; omega
      · rcases hu with rfl | ⟨r, rfl⟩
        · exact .inr ⟨_, rfl⟩
        · exact .inr ⟨_, rfl⟩
  | @cdata s u rest hs hwo _ ih =>
    cases n with
    | zero => simp at hn
    | succ n =>
      rw [List.append_assoc] at hn ⊢
      rw [kids, token_cdata hs hwo]
      dsimp only
      rw [ih hq hw more n]
      · rfl
      · simp at hn ⊢; omega
  | @comment t u rest ht _ ih =>
    cases n with
    | zero => simp at hn
    | succ n =>
      rw [List.append_assoc] at hn ⊢
      rw [kids, token_comment ht]
      dsimp only
      rw [ih hq hw more n]
      · rfl
      · obtain ⟨c, -, rfl⟩ := ht
        simp at hn ⊢; omega
  | @instruction t u rest ht _ ih =>
    cases n with
    | zero => simp at hn
    | succ n =>
      rw [List.append_assoc] at hn ⊢
      rw [kids, token_instruction ht]
      dsimp only
      rw [ih hq hw more n]
      · rfl
      · obtain ⟨_, _, _, _, _, _, rfl⟩ := ht
        simp at hn ⊢; omega
  | @element q' l' a w0 w' t u ks rest hq' ha hw0 hw' _ _ ih1 ih2 =>
    cases n with
    | zero => simp at hn
    | succ n =>
      have e : g!"<" ++ q' ++ a ++ w0 ++ g!">" ++ t ++ g!"</" ++ q' ++ w' ++ g!">" ++ u ++ ('<' :: '/' :: (q ++ (w ++ '>' :: more))) =
          '<' :: (q' ++ (a ++ (w0 ++ '>' :: (t ++ ('<' :: '/' :: (q' ++ (w' ++ '>' :: (u ++ ('<' :: '/' :: (q ++ (w ++ '>' :: more))))))))))) := by
        simp
      rw [e] at hn ⊢
      rw [kids, (token_start hq' ha hw0 _).1]
      dsimp only
      rw [ih1 hq' hw' _ n (by simp at hn ⊢; omega)]
      dsimp only
      rw [if_pos rfl, ih2 hq hw more n (by simp at hn ⊢; omega), (qname_chars hq').2.2.2]
      rfl
  | @empty q' l' a w0 u rest hq' ha hw0 _ ih =>
    cases n with
    | zero => simp at hn
    | succ n =>
      have e : g!"<" ++ q' ++ a ++ w0 ++ g!"/>" ++ u ++ ('<' :: '/' :: (q ++ (w ++ '>' :: more))) =
          '<' :: (q' ++ (a ++ (w0 ++ '/' :: '>' :: (u ++ ('<' :: '/' :: (q ++ (w ++ '>' :: more))))))) := by
        simp
      rw [e] at hn ⊢
      rw [kids, (token_start hq' ha hw0 _).2]
      dsimp only
      rw [ih hq hw more n (by simp at hn ⊢; omega), (qname_chars hq').2.2.2]
      rfl

theorem unescape_blank (w : Str) (h : Blank w) (fuel : Nat) (hf : w.length < fuel) : ∃ s, unescape fuel w = some s := by
  induction hn : w.length using Nat.strongRecOn generalizing w fuel with
  | ind n ih =>
    cases fuel with
    | zero => omega
    | succ fuel =>
      cases w with
      | nil => exact ⟨[], rfl⟩
      | cons c w =>
        have hw : Blank w := fun d hd => h d (by simp [hd])
        obtain ⟨s, hs⟩ := ih w.length (by simp at hn; omega) w hw fuel (by simpa using hf) rfl
        by_cases hc : c = '\r'
        · subst hc
          cases w with
          | nil => exact ⟨'\n' :: s, by simp [unescape, hs]⟩
          | cons d w =>
            by_cases hd : d = '\n'
            · subst hd
              obtain ⟨s', hs'⟩ := ih w.length (by simp at hn; omega) w (fun d hd => hw d (by simp [hd])) fuel (by simp at hf; omega) rfl
              exact ⟨'\n' :: s', by simp [unescape, hs']⟩
            · refine ⟨'\n' :: s, ?_⟩
              unfold unescape
              split
              · omega
              · rename_i he; cases he
              · rename_i he; cases he
              · rename_i he; injection he with _ he; injection he with he; exact absurd he hd
              · rename_i he h2 h3; injection h3 with _ h3; injection h2 with h2; subst h3; subst h2; rw [hs]; rfl
              · rename_i h1 h2 h3 h4; injection h4 with h4; exact absurd h4.symm h2
        · have hl : legal c = true ∧ c ≠ '&' := by
            rcases h c (by simp) with h | h | h | h <;> subst h <;> decide
          exact ⟨c :: s, by rw [unescape_char fuel w hl.2 hc hl.1, hs]; rfl⟩

theorem token_blank {w u : Str} (h : Blank w) (hne : w ≠ []) (hu : ∃ r, u = '<' :: r) : ∃ s, token (w ++ u) = some (.text s, u) := by
  have hch : ∀ c ∈ w, c ≠ '<' ∧ c ≠ ']' := by
    intro c hc
    rcases h c hc with h | h | h | h <;> subst h <;> decide
  have hall : w.all (· != '<') = true := by
    rw [List.all_eq_true]
    intro c hc
    simpa using (hch c hc).1
  have hd : (w ++ u).dropWhile (· != '<') = u := by
    rw [dropWhile_all_append _ _ _ hall, dropWhile_self]
    intro c hc
    obtain ⟨r, rfl⟩ := hu
    cases hc; rfl
  have ht : (w ++ u).takeWhile (· != '<') = w := by
    have := List.takeWhile_append_dropWhile (p := (· != '<')) (l := w ++ u)
    rw [hd] at this
    exact List.append_cancel_right this
  have hc : contains w g!"]]>" = false := by
    rw [Bool.eq_false_iff, ne_eq, contains_iff]
    rintro ⟨a, b, e⟩
    exact (hch ']' (by rw [e]; simp)).2 rfl
  obtain ⟨s, hs⟩ := unescape_blank w h (w.length + 1) (by omega)
  refine ⟨s, ?_⟩
  cases w with
  | nil => exact absurd rfl hne
  | cons c w =>
    unfold token
    split
    · rename_i he; cases he
    · rename_i he; injection he with he; exact absurd he (hch c (by simp)).1
    · dsimp only
      rw [ht, hd, hc, hs]
      rfl

theorem not_mem_blank {w : Str} (h : Blank w) {c : Char} (hc : c ≠ ' ' ∧ c ≠ '\t' ∧ c ≠ '\n' ∧ c ≠ '\r') : c ∉ w := by
  intro hm
  rcases h c hm with h | h | h | h
  · exact hc.1 h
  · exact hc.2.1 h
  · exact hc.2.2.1 h
  · exact hc.2.2.2 h

theorem procInst_version {q : Char} (hq : q = '"' ∨ q = '\'') (n : Nat) (r : Str) :
    procInst g!"version" (n + 1) (g!"version=" ++ [q] ++ g!"1.0" ++ [q] ++ r) = g!"1.0" := by
  have hc : cut? (g!"version" ++ g!"=") (g!"version=" ++ [q] ++ g!"1.0" ++ [q] ++ r) = some ([], q :: (g!"1.0" ++ q :: r)) := by
    have := cut?_at (i := g!"version") (x := '=') (a := []) (b := q :: (g!"1.0" ++ q :: r)) (by
      intro a b e
      have := congrArg List.length e
      simp at this
      omega)
    simpa using this
  have hq1 : q ∉ g!"1.0" := by rcases hq with rfl | rfl <;> decide
  unfold procInst
  rw [hc]
  dsimp only
  rw [if_pos (by rcases hq with rfl | rfl <;> simp), cut?_char q _ _ hq1]

theorem procInst_encoding {a e : Str} (h : 'g' ∉ a) (he : Utf8Name e) (n : Nat) (r : Str) :
    toLower (procInst g!"encoding" (n + 1) (a ++ g!"encoding=" ++ e ++ r)) = g!"utf-8" := by
  obtain ⟨q, x, y, z, hq, hx, hy, hz, rfl⟩ := he
  have hc : cut? (g!"encoding" ++ g!"=") (a ++ g!"encoding=" ++ [q, x, y, z, '-', '8', q] ++ r) = some (a, q :: ([x, y, z, '-', '8'] ++ q :: r)) := by
    have := cut?_at (i := g!"encoding") (x := '=') (a := a) (b := q :: ([x, y, z, '-', '8'] ++ q :: r)) (by
      intro u v e
      have e1 : (a ++ g!"encodin") ++ 'g' :: [] = (u ++ g!"encodin") ++ 'g' :: ('=' :: v) := by simpa using e
      have hg : 'g' ∉ a ++ g!"encodin" := by
        intro hm
        rcases List.mem_append.1 hm with hm | hm
        · exact h hm
        · exact absurd hm (by decide)
      have hcount := congrArg (List.count 'g') e1
      have hg' : 'g' ∉ u ++ g!"encodin" := by
        rw [← List.count_eq_zero]
        rw [List.count_append (l₁ := a ++ _), List.count_append (l₁ := u ++ _), List.count_eq_zero.2 hg] at hcount
        simp only [List.count_cons_self, List.count_nil] at hcount
        omega
      have h1 := cut?_char 'g' _ [] hg
      rw [e1, cut?_char 'g' _ _ hg'] at h1
      simp at h1)
    simpa using this
  have hq1 : q ∉ [x, y, z, '-', '8'] := by
    rcases hq with rfl | rfl <;> rcases hx with rfl | rfl <;> rcases hy with rfl | rfl <;> rcases hz with rfl | rfl <;> decide
  unfold procInst
  rw [hc]
  dsimp only
  rw [if_pos (by rcases hq with rfl | rfl <;> simp), cut?_char q _ _ hq1]
  dsimp only
  rcases hx with rfl | rfl <;> rcases hy with rfl | rfl <;> rcases hz with rfl | rfl <;> decide

theorem procInst_none {s : Str} (h : 'g' ∉ s) (n : Nat) : procInst g!"encoding" (n + 1) s = [] := by
  have : cut? (g!"encoding" ++ g!"=") s = none := by
    rw [cut?_none_iff]
    rintro a b rfl
    exact h (by simp)
  unfold procInst
  rw [this]

theorem token_declaration {d : Str} (h : Declaration d) (t : Str) : token (d ++ t) = some (.other, t) := by
  obtain ⟨w, q, enc, alone, w', hw, hne, hq, henc, halone, hw', rfl⟩ := h
  have hqm : q ≠ '?' ∧ q ≠ 'g' := by rcases hq with rfl | rfl <;> decide
  have hal : '?' ∉ alone ∧ 'g' ∉ alone := by
    rcases halone with rfl | ⟨w2, q2, a, b1, _, hq2, ha, rfl⟩
    · simp
    · have n1 := not_mem_blank b1 (c := '?') (by decide)
      have n2 := not_mem_blank b1 (c := 'g') (by decide)
      have n3 : q2 ≠ '?' ∧ q2 ≠ 'g' := by rcases hq2 with rfl | rfl <;> decide
      have n4 : '?' ∉ a ∧ 'g' ∉ a := by rcases ha with rfl | rfl <;> decide
      simp [n1, n2, n3.1.symm, n3.2.symm, n4.1, n4.2]
  have hen : '?' ∉ enc := by
    rcases henc with rfl | ⟨w1, e, b1, _, ⟨q3, x, y, z, hq3, hx, hy, hz, rfl⟩, rfl⟩
    · simp
    · have n1 := not_mem_blank b1 (c := '?') (by decide)
      have n3 : '?' ≠ q3 ∧ '?' ≠ x ∧ '?' ≠ y ∧ '?' ≠ z := by
        refine ⟨?_, ?_, ?_, ?_⟩
        · rcases hq3 with rfl | rfl <;> decide
        · rcases hx with rfl | rfl <;> decide
        · rcases hy with rfl | rfl <;> decide
        · rcases hz with rfl | rfl <;> decide
      simp [n1, n3]
  have hwq := not_mem_blank hw' (c := '?') (by decide)
  have hwg := not_mem_blank hw' (c := 'g') (by decide)
  generalize hct : g!"version=" ++ [q] ++ g!"1.0" ++ [q] ++ enc ++ alone ++ w' = content
  have hnq : '?' ∉ content := by
    rw [← hct]
    simp [hqm.1.symm, hen, hal.1, hwq]
  have hwo : Without g!"?>" content := by
    rintro a b rfl
    exact hnq (by simp)
  have hd : declaration content = true := by
    have h1 : procInst g!"version" (content.length + 1) content = g!"1.0" := by
      have := procInst_version hq content.length (enc ++ alone ++ w')
      rw [← this, ← hct]
      simp only [List.append_assoc]
    have h2 : procInst g!"encoding" (content.length + 1) content = [] ∨ toLower (procInst g!"encoding" (content.length + 1) content) = g!"utf-8" := by
      rcases henc with rfl | ⟨w1, e, b1, _, he, rfl⟩
      · left
        apply procInst_none
        rw [← hct]
        simp [hqm.2.symm, hal.2, hwg]
      · right
        have hg : 'g' ∉ g!"version=" ++ [q] ++ g!"1.0" ++ [q] ++ w1 := by
          have := not_mem_blank b1 (c := 'g') (by decide)
          simp [hqm.2.symm, this]
        have := procInst_encoding hg he content.length (alone ++ w')
        rw [← this, ← hct]
        simp only [List.append_assoc]
    unfold declaration
    dsimp only
    rw [h1]
    rcases h2 with h2 | h2 <;> simp [h2]
  have hcs : ∃ c s, content = c :: s ∧ isSpace c = false := ⟨'v', _, by rw [← hct]; rfl, by decide⟩
  obtain ⟨v, s, rfl, hv⟩ := hcs
  have e : g!"<?xml" ++ w ++ (v :: s) ++ g!"?>" ++ t = '<' :: '?' :: (g!"xml" ++ (w ++ v :: (s ++ g!"?>" ++ t))) := by simp
  rw [e]
  show markup ('?' :: (g!"xml" ++ (w ++ v :: (s ++ g!"?>" ++ t)))) = _
  have hst : Stops (w ++ v :: (s ++ g!"?>" ++ t)) := by
    intro d hd
    cases w with
    | nil => exact absurd rfl hne
    | cons x w =>
      cases hd
      rcases hw d (by simp) with h | h | h | h <;> subst h <;> rfl
  rw [markup, read_name (by decide) ⟨_, _, rfl, by decide⟩ hst]
  dsimp only
  rw [skip hw hv, show v :: (s ++ g!"?>" ++ t) = (v :: s) ++ g!"?>" ++ t from rfl, cut?_mark hwo]
  dsimp only
  rw [hd]
  rfl

theorem directive_quote {q : Char} {s : Str} (h : q ∉ s) (r : Str) (depth n : Nat) (hn : (s ++ q :: r).length < n) :
    ∃ m, r.length < m ∧ directive n (some q) depth (s ++ q :: r) = directive m none depth r := by
  induction s generalizing n with
  | nil =>
    cases n with
    | zero => simp at hn
    | succ n => exact ⟨n, by simpa using hn, by rw [List.nil_append, directive, if_pos rfl]⟩
  | cons c s ih =>
    cases n with
    | zero => simp at hn
    | succ n =>
      obtain ⟨m, h1, h2⟩ := ih (fun hm => h (by simp [hm])) n (by simpa using hn)
      refine ⟨m, h1, ?_⟩
      rw [List.cons_append, directive, if_neg (by rintro rfl; exact h (by simp)), h2]

theorem comment_close {c : Str} (h : Without g!"--" (c ++ g!"-")) (r : Str) : cut? g!"-->" (c ++ g!"-->" ++ r) = some (c, r) := by
  refine cut?_at (i := g!"--") (x := '>') ?_
  intro a b e
  rcases List.eq_nil_or_concat b with rfl | ⟨b, y, rfl⟩
  · have := congrArg List.getLast? e
    simp at this
  · have e1 : (c ++ g!"-") ++ ['-'] = (a ++ g!"--" ++ ('>' :: b)) ++ [y] := by simpa using e
    exact h a ('>' :: b) (List.append_inj_left' e1 rfl)

theorem directive_inner {s : Str} (h : Inner s) (r : Str) (depth n : Nat) (hn : (s ++ r).length < n) :
    ∃ m, r.length < m ∧ directive n none depth (s ++ r) = directive m none depth r := by
  induction h generalizing r depth n with
  | nil => exact ⟨n, by simpa using hn, rfl⟩
  | @char c t h1 h2 h3 h4 _ ih =>
    cases n with
    | zero => simp at hn
    | succ n =>
      obtain ⟨m, i1, i2⟩ := ih r depth n (by simpa using hn)
      refine ⟨m, i1, ?_⟩
      rw [List.cons_append, directive, if_neg h2, if_neg (by simp [h3, h4]), if_neg h1, i2]
  | @quoted q s t hq hs _ ih =>
    cases n with
    | zero => simp at hn
    | succ n =>
      have e : q :: s ++ q :: t ++ r = q :: (s ++ q :: (t ++ r)) := by simp
      obtain ⟨k, k1, k2⟩ := directive_quote hs (t ++ r) depth n (by rw [e] at hn; simpa using hn)
      obtain ⟨m, i1, i2⟩ := ih r depth k k1
      refine ⟨m, i1, ?_⟩
      rw [e, directive, if_neg (by rcases hq with rfl | rfl <;> decide), if_pos (by rcases hq with rfl | rfl <;> simp), k2, i2]
  | @comment c t hc _ ih =>
    obtain ⟨c, hc, rfl⟩ := hc
    cases n with
    | zero => simp at hn
    | succ n =>
      have e : g!"<!--" ++ c ++ g!"-->" ++ t ++ r = '<' :: (g!"!--" ++ (c ++ g!"-->" ++ (t ++ r))) := by simp
      obtain ⟨m, i1, i2⟩ := ih r depth n (by simp at hn ⊢; omega)
      refine ⟨m, i1, ?_⟩
      rw [e, directive, if_neg (by decide), if_neg (by decide), if_pos rfl, if_pos ((hasPrefix_iff _ _).2 ⟨_, rfl⟩)]
      rw [show (g!"!--" ++ (c ++ g!"-->" ++ (t ++ r))).drop 3 = c ++ g!"-->" ++ (t ++ r) from rfl, comment_close hc]
      dsimp only
      rw [i2]
  | @nested s t _ hs _ ih1 ih2 =>
    cases n with
    | zero => simp at hn
    | succ n =>
      have e : '<' :: s ++ '>' :: t ++ r = '<' :: (s ++ '>' :: (t ++ r)) := by simp
      obtain ⟨k, k1, k2⟩ := ih1 ('>' :: (t ++ r)) (depth + 1) n (by rw [e] at hn; simpa using hn)
      cases k with
      | zero => simp at k1
      | succ k =>
        obtain ⟨m, i1, i2⟩ := ih2 r depth k (by simpa using k1)
        refine ⟨m, i1, ?_⟩
        have hp : hasPrefix (s ++ '>' :: (t ++ r)) g!"!--" = false := by
          rw [Bool.eq_false_iff, ne_eq, hasPrefix_iff]
          rintro ⟨u, hu⟩
          match s, hs, hu with
          | [], _, hu => simp at hu
          | [_], _, hu => simp at hu
          | [_, _], _, hu => simp at hu
          | a :: b :: c :: s, hs, hu =>
            simp at hu
            exact hs s (by simp [hu.1, hu.2.1, hu.2.2.1])
        rw [e, directive, if_neg (by decide), if_neg (by decide), if_pos rfl, hp, if_neg (by simp), k2, directive, if_pos rfl, if_neg (by omega),
          Nat.add_sub_cancel, i2]

theorem token_doctype {s : Str} (h : Inner s) (t : Str) : token (g!"<!DOCTYPE" ++ s ++ g!">" ++ t) = some (.other, t) := by
  have e : g!"<!DOCTYPE" ++ s ++ g!">" ++ t = '<' :: '!' :: 'D' :: (g!"OCTYPE" ++ (s ++ '>' :: t)) := by simp
  rw [e]
  show markup ('!' :: 'D' :: (g!"OCTYPE" ++ (s ++ '>' :: t))) = _
  have hi : Inner (g!"OCTYPE" ++ s) := by
    refine .char (by decide) (by decide) (by decide) (by decide) (.char (by decide) (by decide) (by decide) (by decide)
      (.char (by decide) (by decide) (by decide) (by decide) (.char (by decide) (by decide) (by decide) (by decide)
      (.char (by decide) (by decide) (by decide) (by decide) (.char (by decide) (by decide) (by decide) (by decide) h)))))
  obtain ⟨m, h1, h2⟩ := directive_inner hi ('>' :: t) 0 ((g!"OCTYPE" ++ (s ++ '>' :: t)).length + 1) (by simp)
  rw [List.append_assoc] at h2
  have hm : markup ('!' :: 'D' :: (g!"OCTYPE" ++ (s ++ '>' :: t))) =
      (directive ((g!"OCTYPE" ++ (s ++ '>' :: t)).length + 1) none 0 (g!"OCTYPE" ++ (s ++ '>' :: t))).map fun r => (.other, r) := rfl
  rw [hm, h2]
  cases m with
  | zero => simp at h1
  | succ m => rw [directive, if_pos rfl, if_pos rfl]; rfl

theorem prolog_root {p : Str} (h : Prolog p) (r : Str) (n : Nat) (hn : (p ++ '<' :: r).length < n) :
    ∃ m, ('<' :: r).length < m ∧ root n (p ++ '<' :: r) = root m ('<' :: r) := by
  have step : ∀ (n : Nat) (c t : Str), (c ++ t ++ '<' :: r).length < n → 0 < c.length →
      (token (c ++ (t ++ '<' :: r)) = some (.other, t ++ '<' :: r) ∨ ∃ s, token (c ++ (t ++ '<' :: r)) = some (.text s, t ++ '<' :: r)) →
      (∀ k, (t ++ '<' :: r).length < k → ∃ m, ('<' :: r).length < m ∧ root k (t ++ '<' :: r) = root m ('<' :: r)) →
      ∃ m, ('<' :: r).length < m ∧ root n (c ++ t ++ '<' :: r) = root m ('<' :: r) := by
    intro n c t hn hc htok ih
    cases n with
    | zero => simp at hn
    | succ n =>
      obtain ⟨m, h1, h2⟩ := ih n (by simp at hn ⊢; omega)
      refine ⟨m, h1, ?_⟩
      rw [List.append_assoc, root]
      rcases htok with h | ⟨s, h⟩ <;> rw [h] <;> exact h2
  induction h generalizing n with
  | nil => exact ⟨n, by simpa using hn, rfl⟩
  | @declaration d t hd _ ih =>
    refine step n d t hn ?_ (.inl (token_declaration hd _)) ih
    obtain ⟨_, _, _, _, _, _, _, _, _, _, _, rfl⟩ := hd
    simp
  | @doctype s t hs _ ih => exact step n (g!"<!DOCTYPE" ++ s ++ g!">") t hn (by simp) (.inl (token_doctype hs _)) ih
  | @comment c t hc _ ih =>
    refine step n c t hn ?_ (.inl (token_comment hc _)) ih
    obtain ⟨c, -, rfl⟩ := hc
    simp
  | @instruction c t hc _ ih =>
    refine step n c t hn ?_ (.inl (token_instruction hc _)) ih
    obtain ⟨_, _, _, _, _, _, rfl⟩ := hc
    simp
  | @blank w t hw hne ht _ ih =>
    refine step n w t hn (List.length_pos_iff.2 hne) (.inr (token_blank hw hne ?_)) ih
    rcases ht with rfl | ⟨r', rfl⟩
    · exact ⟨_, rfl⟩
    · exact ⟨_, rfl⟩

theorem read_document {l t : Str} {ks : List XNode} (h : Document l ks t) : read t = some (l, ks) := by
  cases h with
  | @mk p q l a w w' t more ks hp hq ha hw hw' hc =>
    unfold read
    have e : p ++ (g!"<" ++ q ++ a ++ w ++ g!">" ++ t ++ g!"</" ++ q ++ w' ++ g!">" ++ more) =
        p ++ '<' :: (q ++ (a ++ (w ++ '>' :: (t ++ ('<' :: '/' :: (q ++ (w' ++ '>' :: more))))))) := by simp
    rw [e]
    obtain ⟨m, hm, hr⟩ := prolog_root hp (q ++ (a ++ (w ++ '>' :: (t ++ ('<' :: '/' :: (q ++ (w' ++ '>' :: more))))))) _ (Nat.lt_succ_self _)
    rw [hr]
    cases m with
    | zero => simp at hm
    | succ m =>
      rw [root, (token_start hq ha hw _).1]
      dsimp only
      rw [read_content hc hq hw' more _ (Nat.le_succ _)]
      dsimp only
      rw [if_pos rfl, (qname_chars hq).2.2.2]

end Osv.Xml
