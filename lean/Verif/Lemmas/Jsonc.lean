import Verif.Go.Jsonc
import Verif.Lemmas.JsonText
/-! # From JSON with comments to JSON -/
namespace Osv.Jsonc
open Osv Osv.Spec Osv.Json

theorem loop_other {c : Char} (h : c ≠ '/' ∧ c ≠ '"' ∧ c ≠ '}' ∧ c ≠ ']') (r out : Str) : loop .code (c :: r) out = loop .code r (c :: out) := by
  rw [loop]
  · simp [h]
  · intro r' e; exact absurd e h.1
  · intro r' e; exact absurd e h.1

theorem loop_run {s : Str} (h : ∀ c ∈ s, c ≠ '/' ∧ c ≠ '"' ∧ c ≠ '}' ∧ c ≠ ']') (r out : Str) :
    loop .code (s ++ r) out = loop .code r (s.reverse ++ out) := by
  induction s generalizing out with
  | nil => rfl
  | cons c s ih =>
    rw [List.cons_append, loop_other (h c (by simp)), ih fun x hx => h x (by simp [hx])]
    simp

theorem blank_blank (c : Char) : JBlank (blank c) := by
  intro x hx
  unfold blank at hx
  split at hx
  · rename_i h
    simp only [Bool.or_eq_true, decide_eq_true_eq] at h
    rw [List.mem_singleton] at hx
    subst hx
    rcases h with (h | h) | h
    · exact .inr (.inr (.inr h))
    · exact .inr (.inl h)
    · exact .inr (.inr (.inl h))
  · exact .inl (List.eq_of_mem_replicate hx)

theorem blank_reverse {s : Str} (h : JBlank s) : JBlank s.reverse := fun c hc => h c (List.mem_reverse.1 hc)

theorem loop_line {t : Str} (h : '\n' ∉ t) : ∃ b, JBlank b ∧ (∀ r out, loop .line (t ++ '\n' :: r) out = loop .code r ('\n' :: (b ++ out))) ∧
    ∀ out, loop .line t out = out.reverse ++ b.reverse := by
  induction t with
  | nil => exact ⟨[], JText.blank_nil, fun r out => by rw [List.nil_append, loop]; rfl, fun out => by rw [loop]; simp⟩
  | cons c t ih =>
    simp only [List.mem_cons, not_or] at h
    obtain ⟨b, hb, h1, h2⟩ := ih h.2
    refine ⟨b ++ blank c, JText.blank_append hb (blank_blank c), fun r out => ?_, fun out => ?_⟩
    · rw [List.cons_append, loop, if_neg (Ne.symm h.1), h1]
      simp
    · rw [loop, if_neg (Ne.symm h.1), h2]
      simp

theorem loop_block {t : Str} (h : ¬ g!"*/" <:+: t) : ∃ b, JBlank b ∧
    ∀ r out, loop .block (t ++ '*' :: '/' :: r) out = loop .code r (' ' :: ' ' :: (b ++ out)) := by
  induction t with
  | nil => exact ⟨[], JText.blank_nil, fun r out => by rw [List.nil_append, loop]; rfl⟩
  | cons c t ih =>
    obtain ⟨b, hb, h1⟩ := ih fun h' => h (List.infix_cons h')
    refine ⟨b ++ blank c, JText.blank_append hb (blank_blank c), fun r out => ?_⟩
    rw [List.cons_append, loop, h1]
    · simp
    · rintro r' rfl e
      cases t with
      | nil => cases e
      | cons d t =>
        cases e
        exact h ⟨[], t, rfl⟩
    · intro e
      cases t <;> cases e

/-- Comments become white space, and white space stays. -/
theorem loop_gap {g : Str} (h : JGap g) : ∃ g', JBlank g' ∧ ∀ r out, loop .code (g ++ r) out = loop .code r (g'.reverse ++ out) := by
  induction h with
  | nil => exact ⟨[], JText.blank_nil, fun r out => rfl⟩
  | @space c s hc _ ih =>
    obtain ⟨g', hg, h⟩ := ih
    refine ⟨c :: g', ?_, fun r out => ?_⟩
    · intro x hx
      rcases List.mem_cons.1 hx with rfl | hx
      · exact hc
      · exact hg x hx
    · rw [List.cons_append, loop_other, h]
      · simp
      · rcases hc with rfl | rfl | rfl | rfl <;> decide
  | @line t s ht _ ih =>
    obtain ⟨g', hg, h⟩ := ih
    obtain ⟨b, hb, h1, -⟩ := loop_line ht
    refine ⟨[' ', ' '] ++ (b.reverse ++ ('\n' :: g')), ?_, fun r out => ?_⟩
    · refine JText.blank_append (by simp [JBlank]) (JText.blank_append (blank_reverse hb) ?_)
      intro x hx
      rcases List.mem_cons.1 hx with rfl | hx
      · exact .inr (.inr (.inr rfl))
      · exact hg x hx
    · simp only [List.cons_append, List.append_assoc]
      rw [loop, h1, h]
      simp
  | @block t s ht _ ih =>
    obtain ⟨g', hg, h⟩ := ih
    obtain ⟨b, hb, h1⟩ := loop_block ht
    refine ⟨[' ', ' '] ++ (b.reverse ++ ([' ', ' '] ++ g')), ?_, fun r out => ?_⟩
    · exact JText.blank_append (by simp [JBlank]) (JText.blank_append (blank_reverse hb) (JText.blank_append (by simp [JBlank]) hg))
    · simp only [List.cons_append, List.append_assoc]
      rw [loop, h1, h]
      simp

theorem loop_blank {g : Str} (h : JBlank g) (r out : Str) : loop .code (g ++ r) out = loop .code r (g.reverse ++ out) := by
  refine loop_run (fun c hc => ?_) r out
  rcases h c hc with rfl | rfl | rfl | rfl <;> decide

theorem loop_str_plain {c : Char} {odd : Bool} (h : c ≠ '"' ∧ c ≠ '\\') (r out : Str) :
    loop (.str odd) (c :: r) out = loop (.str false) r (c :: out) := by
  rw [loop]; simp [h]

theorem loop_escape (e : Char) (r out : Str) :
    loop (.str false) ('\\' :: e :: r) out = loop (.str false) r (e :: '\\' :: out) := by
  rw [loop, if_neg (by decide)]
  show loop (.str true) (e :: r) ('\\' :: out) = _
  rw [loop]; simp

theorem hex_plain {c : Char} (h : isHex c = true) : c ≠ '"' ∧ c ≠ '\\' := by
  constructor <;> (rintro rfl; revert h; decide)

theorem loop_unit {u : Str} {n : Nat} (h : CodeUnit u n) (r out : Str) :
    loop (.str false) (u ++ r) out = loop (.str false) r (u.reverse ++ out) := by
  obtain ⟨a, b, c, d, rfl, ha, hb, hc, hd, -⟩ := JText.unit_facts h
  simp only [List.cons_append, List.nil_append]
  rw [loop_escape, loop_str_plain (hex_plain ha), loop_str_plain (hex_plain hb), loop_str_plain (hex_plain hc),
    loop_str_plain (hex_plain hd)]
  simp

/-- The inside of a string stays. -/
theorem loop_chars {t raw : Str} (h : JChars t raw) : ∀ r out, loop (.str false) (raw ++ r) out = loop (.str false) r (raw.reverse ++ out) := by
  induction h with
  | nil => intro r out; rfl
  | plain hq hb _ _ ih => intro r out; rw [List.cons_append, loop_str_plain ⟨hq, hb⟩, ih]; simp
  | short _ _ ih => intro r out; rw [List.cons_append, List.cons_append, loop_escape, ih]; simp
  | unit hu _ _ _ ih => intro r out; rw [List.append_assoc, loop_unit hu, ih]; simp
  | pair hu hw _ _ _ ih => intro r out; rw [List.append_assoc, List.append_assoc, loop_unit hu, loop_unit hw, ih]; simp
  | alone hu _ _ _ ih => intro r out; rw [List.append_assoc, loop_unit hu, ih]; simp

theorem loop_string {t q : Str} (h : JString t q) (r out : Str) : loop .code (q ++ r) out = loop .code r (q.reverse ++ out) := by
  obtain ⟨raw, hr, rfl⟩ := h
  have e : '"' :: (raw ++ ['"']) ++ r = '"' :: (raw ++ '"' :: r) := by simp
  rw [e, loop, if_pos rfl, loop_chars hr, loop, if_pos (by decide)]
  · simp
  · intro r' h; cases h
  · intro r' h; cases h

/-- What has been written ends with something else than white space and commas. -/
def Solid (out : Str) : Prop := ∃ x o, out = x :: o ∧ ¬ x ≤ ' ' ∧ x ≠ ','

theorem blank_le {c : Char} (h : c = ' ' ∨ c = '\t' ∨ c = '\r' ∨ c = '\n') : c ≤ ' ' := by
  rcases h with rfl | rfl | rfl | rfl <;> decide

theorem dropComma_blank {g : Str} (h : JBlank g) (out : Str) : dropComma (g ++ out) = g ++ dropComma out := by
  induction g with
  | nil => rfl
  | cons c g ih =>
    rw [List.cons_append, dropComma, if_pos (blank_le (h c (by simp))), ih fun x hx => h x (by simp [hx])]
    rfl

theorem dropComma_solid {out : Str} (h : Solid out) : dropComma out = out := by
  obtain ⟨x, o, rfl, h1, h2⟩ := h
  rw [dropComma, if_neg h1, if_neg h2]

theorem loop_close {c : Char} (hc : c = ']' ∨ c = '}') (r out : Str) : loop .code (c :: r) out = loop .code r (c :: dropComma out) := by
  rcases hc with rfl | rfl <;>
  · rw [loop, if_neg (by decide), if_pos (by decide)]
    · intro r' h; cases h
    · intro r' h; cases h

theorem loop_gap_close {g : Str} (h : JBlank g) {c : Char} (hc : c = ']' ∨ c = '}') {out : Str} (ho : Solid out) (r : Str) :
    loop .code (c :: r) (g.reverse ++ out) = loop .code r (c :: (g.reverse ++ out)) := by
  rw [loop_close hc, dropComma_blank (blank_reverse h), dropComma_solid ho]

/-! ## Values -/

theorem number_chars {l : Str} (h : JNumber l) :
    (∀ c ∈ l, c ≠ '/' ∧ c ≠ '"' ∧ c ≠ '}' ∧ c ≠ ']') ∧ Solid l.reverse := by
  obtain ⟨sign, int, frac, exp, rfl, hs, hi, hf, he⟩ := h
  have hd : ∀ d : Str, DecDigits d → (∀ c ∈ d, c ≠ '/' ∧ c ≠ '"' ∧ c ≠ '}' ∧ c ≠ ']') ∧ ∀ p : Str, Solid (p ++ d).reverse := by
    rintro d ⟨h1, h2⟩
    constructor
    · intro c hc
      have := h2 c hc
      refine ⟨?_, ?_, ?_, ?_⟩ <;> (rintro rfl; revert this; decide)
    · intro p
      obtain ⟨q, c, rfl⟩ : ∃ q c, d = q ++ [c] := ⟨d.dropLast, d.getLast h1, (List.dropLast_concat_getLast h1).symm⟩
      refine ⟨c, (p ++ q).reverse, by simp, ?_, ?_⟩
      · have := (h2 c (by simp)).1
        intro h
        exact absurd (Char.le_trans this h) (by decide)
      · have := h2 c (by simp)
        rintro rfl; revert this; decide
  have hI : (∀ c ∈ int, c ≠ '/' ∧ c ≠ '"' ∧ c ≠ '}' ∧ c ≠ ']') ∧ ∀ p : Str, Solid (p ++ int).reverse := by
    rcases hi with rfl | ⟨hi, -⟩
    · exact hd _ ⟨by decide, by decide⟩
    · exact hd _ hi
  have hF : (∀ c ∈ frac, c ≠ '/' ∧ c ≠ '"' ∧ c ≠ '}' ∧ c ≠ ']') ∧ (frac = [] ∨ ∀ p : Str, Solid (p ++ frac).reverse) := by
    rcases hf with rfl | ⟨d, hdd, rfl⟩
    · exact ⟨by simp, .inl rfl⟩
    · refine ⟨?_, .inr fun p => ?_⟩
      · intro c hc
        rcases List.mem_cons.1 hc with rfl | hc
        · decide
        · exact (hd d hdd).1 c hc
      · have := (hd d hdd).2 (p ++ ['.'])
        simpa using this
  have hE : (∀ c ∈ exp, c ≠ '/' ∧ c ≠ '"' ∧ c ≠ '}' ∧ c ≠ ']') ∧ (exp = [] ∨ ∀ p : Str, Solid (p ++ exp).reverse) := by
    rcases he with rfl | ⟨e, sg, d, he, hsg, hdd, rfl⟩
    · exact ⟨by simp, .inl rfl⟩
    · refine ⟨?_, .inr fun p => ?_⟩
      · intro c hc
        simp only [List.cons_append, List.mem_cons, List.mem_append] at hc
        rcases hc with rfl | hc | hc
        · rcases he with rfl | rfl <;> decide
        · rcases hsg with rfl | rfl | rfl
          · cases hc
          · rw [List.mem_singleton.1 hc]; decide
          · rw [List.mem_singleton.1 hc]; decide
        · exact (hd d hdd).1 c hc
      · have := (hd d hdd).2 (p ++ e :: sg)
        simpa using this
  have hS : ∀ c ∈ sign, c ≠ '/' ∧ c ≠ '"' ∧ c ≠ '}' ∧ c ≠ ']' := by
    rcases hs with rfl | rfl <;> decide
  constructor
  · intro c hc
    simp only [List.mem_append] at hc
    rcases hc with ((hc | hc) | hc) | hc
    · exact hS c hc
    · exact hI.1 c hc
    · exact hF.1 c hc
    · exact hE.1 c hc
  · rcases hE.2 with rfl | h
    · rw [List.append_nil]
      rcases hF.2 with rfl | h
      · rw [List.append_nil]; exact hI.2 _
      · exact h _
    · exact h _

/-- The gaps of a layout become white space; if `p`, they stay. -/
structure Blanks (L : Layout) (p : Prop) : Prop where
  gap : ∀ g, L.gap g → ∃ g', JBlank g' ∧ (p → g' = g) ∧ ∀ r out, loop .code (g ++ r) out = loop .code r (g'.reverse ++ out)
  close : ∀ g, L.close g → ∃ g', JBlank g' ∧ (p → g' = g) ∧ ∀ c, c = ']' ∨ c = '}' → ∀ r out, Solid out →
    loop .code (g ++ c :: r) out = loop .code r (c :: (g'.reverse ++ out))

theorem blanks_json : Blanks jsonLayout True where
  gap g h := ⟨g, h, fun _ => rfl, loop_blank h⟩
  close g h := ⟨g, h, fun _ => rfl, fun c hc r out ho => by rw [loop_blank h, loop_gap_close h hc ho]⟩

theorem blanks_jsonc : Blanks jsoncLayout False where
  gap g h := by
    obtain ⟨g', hg, h⟩ := loop_gap h
    exact ⟨g', hg, False.elim, h⟩
  close g h := by
    rcases h with h | ⟨a, b, ha, hb, rfl⟩
    · obtain ⟨g', hg, h⟩ := loop_gap h
      exact ⟨g', hg, False.elim, fun c hc r out ho => by rw [h, loop_gap_close hg hc ho]⟩
    · obtain ⟨a', ha', h1⟩ := loop_gap ha
      obtain ⟨b', hb', h2⟩ := loop_gap hb
      refine ⟨a' ++ ' ' :: b', JText.blank_append ha' ?_, False.elim, fun c hc r out ho => ?_⟩
      · intro x hx
        rcases List.mem_cons.1 hx with rfl | hx
        · exact .inl rfl
        · exact hb' x hx
      · rw [List.append_assoc, h1, List.cons_append, loop_other (by decide), h2, loop_close hc, dropComma_blank (blank_reverse hb'),
          dropComma, if_neg (by decide), if_pos rfl]
        simp

theorem Solid.append {a : Str} (h : Solid a) (b : Str) : Solid (a ++ b) := by
  obtain ⟨x, o, rfl, h⟩ := h
  exact ⟨x, o ++ b, rfl, h⟩

theorem loop_open {c : Char} (hc : c = '[' ∨ c = '{') (r out : Str) : loop .code (c :: r) out = loop .code r (c :: out) := by
  rcases hc with rfl | rfl <;> exact loop_other (by decide) r out

mutual
/-- A value stays, with white space for comments. -/
theorem loop_value {L : Layout} {p : Prop} (H : Blanks L p) (v : JVal) (s : Str) (h : JText L v s) :
    ∃ s', JText jsonLayout v s' ∧ (p → s' = s) ∧ Solid s'.reverse ∧ ∀ r out, loop .code (s ++ r) out = loop .code r (s'.reverse ++ out) := by
  match v, h with
  | .null, h => cases h; exact ⟨_, rfl, fun _ => rfl, ⟨'l', _, rfl, by decide, by decide⟩, loop_run (by decide)⟩
  | .bool true, h => cases h; exact ⟨_, rfl, fun _ => rfl, ⟨'e', _, rfl, by decide, by decide⟩, loop_run (by decide)⟩
  | .bool false, h => cases h; exact ⟨_, rfl, fun _ => rfl, ⟨'e', _, rfl, by decide, by decide⟩, loop_run (by decide)⟩
  | .num l, h =>
    obtain ⟨h, rfl⟩ := h
    have := number_chars h
    exact ⟨s, ⟨h, rfl⟩, fun _ => rfl, this.2, loop_run this.1⟩
  | .str t, h =>
    refine ⟨s, h, fun _ => rfl, ?_, loop_string h⟩
    obtain ⟨raw, hr, rfl⟩ := h
    exact ⟨'"', raw.reverse ++ ['"'], by simp, by decide, by decide⟩
  | .arr .nil, h =>
    obtain ⟨g, hg, rfl⟩ := h
    obtain ⟨g', hg', hp, hl⟩ := H.gap g hg
    refine ⟨'[' :: (g' ++ [']']), ⟨g', hg', rfl⟩, fun h => by rw [hp h], ⟨']', g'.reverse ++ ['['], by simp, by decide, by decide⟩,
      fun r out => ?_⟩
    simp only [List.cons_append, List.append_assoc, List.nil_append]
    rw [loop_open (.inl rfl), hl, loop_gap_close hg' (.inl rfl) ⟨'[', out, rfl, by decide, by decide⟩]
    simp
  | .arr (.cons v l), h =>
    obtain ⟨g, a, b, hg, ha, hb, rfl⟩ := h
    obtain ⟨g', hg', hgp, hgl⟩ := H.gap g hg
    obtain ⟨a', ha', hap, has, hal⟩ := loop_value H v a ha
    obtain ⟨b', hb', hbp, ⟨o, hbs⟩, hbl⟩ := loop_elems H l b hb
    refine ⟨'[' :: (g' ++ (a' ++ b')), ⟨g', a', b', hg', ha', hb', rfl⟩, fun h => by rw [hgp h, hap h, hbp h], ?_, fun r out => ?_⟩
    · refine ⟨']', o ++ (a'.reverse ++ (g'.reverse ++ ['['])), ?_, by decide, by decide⟩
      simp [hbs]
    · simp only [List.cons_append, List.append_assoc]
      rw [loop_open (.inl rfl), hgl, hal, hbl _ _ (has.append _)]
      simp
  | .obj .nil, h =>
    obtain ⟨g, hg, rfl⟩ := h
    obtain ⟨g', hg', hp, hl⟩ := H.gap g hg
    refine ⟨'{' :: (g' ++ ['}']), ⟨g', hg', rfl⟩, fun h => by rw [hp h], ⟨'}', g'.reverse ++ ['{'], by simp, by decide, by decide⟩,
      fun r out => ?_⟩
    simp only [List.cons_append, List.append_assoc, List.nil_append]
    rw [loop_open (.inr rfl), hl, loop_gap_close hg' (.inr rfl) ⟨'{', out, rfl, by decide, by decide⟩]
    simp
  | .obj (.cons k v m), h =>
    obtain ⟨g, q, j, i, a, b, hg, hq, hh, hi, ha, hb, rfl⟩ := h
    obtain ⟨g', hg', hgp, hgl⟩ := H.gap g hg
    obtain ⟨h', hh', hhp, hhl⟩ := H.gap j hh
    obtain ⟨i', hi', hip, hil⟩ := H.gap i hi
    obtain ⟨a', ha', hap, has, hal⟩ := loop_value H v a ha
    obtain ⟨b', hb', hbp, ⟨o, hbs⟩, hbl⟩ := loop_membs H m b hb
    refine ⟨'{' :: (g' ++ (q ++ (h' ++ ':' :: (i' ++ (a' ++ b'))))), ⟨g', q, h', i', a', b', hg', hq, hh', hi', ha', hb', rfl⟩,
      fun h => by rw [hgp h, hhp h, hip h, hap h, hbp h], ?_, fun r out => ?_⟩
    · refine ⟨'}', o ++ (a'.reverse ++ (i'.reverse ++ ':' :: (h'.reverse ++ (q.reverse ++ (g'.reverse ++ ['{']))))), ?_, by decide, by decide⟩
      simp [hbs]
    · simp only [List.cons_append, List.append_assoc]
      rw [loop_open (.inr rfl), hgl, loop_string hq, hhl, loop_other (by decide), hil, hal, hbl _ _ (has.append _)]
      simp
termination_by sizeOf v

theorem loop_elems {L : Layout} {p : Prop} (H : Blanks L p) (l : JList) (s : Str) (h : JElems L l s) :
    ∃ s', JElems jsonLayout l s' ∧ (p → s' = s) ∧ (∃ o, s'.reverse = ']' :: o) ∧
      ∀ r out, Solid out → loop .code (s ++ r) out = loop .code r (s'.reverse ++ out) := by
  match l, h with
  | .nil, h =>
    obtain ⟨g, hg, rfl⟩ := h
    obtain ⟨g', hg', hp, hl⟩ := H.close g hg
    refine ⟨g' ++ [']'], ⟨g', hg', rfl⟩, fun h => by rw [hp h], ⟨g'.reverse, by simp⟩, fun r out ho => ?_⟩
    rw [List.append_assoc, List.cons_append, List.nil_append, hl _ (.inl rfl) _ _ ho]
    simp
  | .cons v l, h =>
    obtain ⟨f, g, a, b, hf, hg, ha, hb, rfl⟩ := h
    obtain ⟨f', hf', hfp, hfl⟩ := H.gap f hf
    obtain ⟨g', hg', hgp, hgl⟩ := H.gap g hg
    obtain ⟨a', ha', hap, has, hal⟩ := loop_value H v a ha
    obtain ⟨b', hb', hbp, ⟨o, hbs⟩, hbl⟩ := loop_elems H l b hb
    refine ⟨f' ++ ',' :: (g' ++ (a' ++ b')), ⟨f', g', a', b', hf', hg', ha', hb', rfl⟩, fun h => by rw [hfp h, hgp h, hap h, hbp h],
      ⟨o ++ (a'.reverse ++ (g'.reverse ++ ',' :: f'.reverse)), by simp [hbs]⟩, fun r out ho => ?_⟩
    simp only [List.cons_append, List.append_assoc]
    rw [hfl, loop_other (by decide), hgl, hal, hbl _ _ (has.append _)]
    simp
termination_by sizeOf l

theorem loop_membs {L : Layout} {p : Prop} (H : Blanks L p) (m : JMembers) (s : Str) (h : JMembs L m s) :
    ∃ s', JMembs jsonLayout m s' ∧ (p → s' = s) ∧ (∃ o, s'.reverse = '}' :: o) ∧
      ∀ r out, Solid out → loop .code (s ++ r) out = loop .code r (s'.reverse ++ out) := by
  match m, h with
  | .nil, h =>
    obtain ⟨g, hg, rfl⟩ := h
    obtain ⟨g', hg', hp, hl⟩ := H.close g hg
    refine ⟨g' ++ ['}'], ⟨g', hg', rfl⟩, fun h => by rw [hp h], ⟨g'.reverse, by simp⟩, fun r out ho => ?_⟩
    rw [List.append_assoc, List.cons_append, List.nil_append, hl _ (.inr rfl) _ _ ho]
    simp
  | .cons k v m, h =>
    obtain ⟨f, g, q, j, i, a, b, hf, hg, hq, hh, hi, ha, hb, rfl⟩ := h
    obtain ⟨f', hf', hfp, hfl⟩ := H.gap f hf
    obtain ⟨g', hg', hgp, hgl⟩ := H.gap g hg
    obtain ⟨h', hh', hhp, hhl⟩ := H.gap j hh
    obtain ⟨i', hi', hip, hil⟩ := H.gap i hi
    obtain ⟨a', ha', hap, has, hal⟩ := loop_value H v a ha
    obtain ⟨b', hb', hbp, ⟨o, hbs⟩, hbl⟩ := loop_membs H m b hb
    refine ⟨f' ++ ',' :: (g' ++ (q ++ (h' ++ ':' :: (i' ++ (a' ++ b'))))),
      ⟨f', g', q, h', i', a', b', hf', hg', hq, hh', hi', ha', hb', rfl⟩,
      fun h => by rw [hfp h, hgp h, hhp h, hip h, hap h, hbp h],
      ⟨o ++ (a'.reverse ++ (i'.reverse ++ ':' :: (h'.reverse ++ (q.reverse ++ (g'.reverse ++ ',' :: f'.reverse))))), by simp [hbs]⟩,
      fun r out ho => ?_⟩
    simp only [List.cons_append, List.append_assoc]
    rw [hfl, loop_other (by decide), hgl, loop_string hq, hhl, loop_other (by decide), hil, hal, hbl _ _ (has.append _)]
    simp
termination_by sizeOf m
end

/-- A JSON text stays. -/
theorem toJSON_json {v : JVal} {s : Str} (h : JsonDoc v s) : toJSON s = s := by
  obtain ⟨g, a, h, hg, ha, hh, rfl⟩ := h
  obtain ⟨a', -, hp, -, hl⟩ := loop_value blanks_json v a ha
  rw [hp trivial] at hl
  have e := loop_blank hh [] (a.reverse ++ (g.reverse ++ []))
  rw [List.append_nil] at e
  unfold toJSON
  rw [loop_blank hg, hl, e, loop]
  simp

/-- A JSON text with comments becomes a JSON text of the same value. -/
theorem toJSON_jsonc {v : JVal} {s : Str} (h : JsoncDoc v s) : JsonDoc v (toJSON s) := by
  obtain ⟨g, a, h, e, hg, ha, hh, he, rfl⟩ := h
  obtain ⟨g', hg', h1⟩ := loop_gap hg
  obtain ⟨a', ha', -, -, h2⟩ := loop_value blanks_jsonc v a ha
  obtain ⟨h', hh', h3⟩ := loop_gap hh
  unfold toJSON
  rw [h1, h2, h3]
  rcases he with rfl | ⟨t, ht, rfl⟩
  · rw [loop]
    exact ⟨g', a', h', hg', ha', hh', by simp⟩
  · obtain ⟨b, hb, -, h4⟩ := loop_line ht
    rw [loop, h4]
    refine ⟨g', a', h' ++ ([' ', ' '] ++ b.reverse), hg', ha',
      JText.blank_append hh' (JText.blank_append (by simp [JBlank]) (blank_reverse hb)), by simp⟩

end Osv.Jsonc
