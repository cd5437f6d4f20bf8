import Verif.Lemmas.YamlLines
/-!
# What is read is a YAML document
-/
namespace Osv.YamlScan
open Osv Spec

/-! ### Scalars -/

theorem plain_inv (flow : Bool) (s : Str) : s = (plain flow s).1 ++ (plain flow s).2 ∧ stops flow (plain flow s).2 = true ∧
    ∀ a c b, (plain flow s).1 = a ++ c :: b → stops flow (c :: (b ++ (plain flow s).2)) = false := by
  induction s with
  | nil => exact ⟨rfl, rfl, fun a c b e => by cases a <;> cases e⟩
  | cons x s ih =>
    rw [plain]
    split
    · rename_i h
      exact ⟨rfl, h, fun a c b e => by cases a <;> cases e⟩
    · rename_i h
      refine ⟨congrArg (x :: ·) ih.1, ih.2.1, ?_⟩
      intro a c b e
      cases a with
      | nil =>
        simp only [List.nil_append, List.cons.injEq] at e
        obtain ⟨rfl, e⟩ := e
        show stops flow (x :: (b ++ (plain flow s).2)) = false
        rw [← e, ← ih.1]
        simpa using h
      | cons y a =>
        simp only [List.cons_append, List.cons.injEq] at e
        exact ih.2.2 a c b e.2

theorem stops_space {flow : Bool} {r : Str} (h : stops flow r = true) : stops flow (' ' :: r) = true := by
  have hs : stops flow (' ' :: r) = ((skip r).head? == some '#' || mark flow (skip r)) := by
    unfold stops
    dsimp only
    rw [if_pos rfl]
  rw [hs]
  cases r with
  | nil => rfl
  | cons c r =>
    unfold stops at h
    dsimp only at h
    split at h
    · rename_i e
      subst e
      exact h
    · rename_i hc
      rw [skip_stop (r := c :: r) (by simpa using hc), h, Bool.or_true]

theorem plain_sound {flow : Bool} {s : Str} (h : plainOk flow (plain flow s).1 = true) : YmlPlain flow (plain flow s).1 := by
  obtain ⟨_, hr, hin⟩ := plain_inv flow s
  obtain ⟨h1, h2, h3⟩ := plainOk_iff.1 h
  generalize (plain flow s).1 = p at *
  generalize (plain flow s).2 = r at *
  refine ⟨h1, ?_, ?_, ⟨h2, ?_⟩, ?_⟩
  · rintro ⟨a, b, e⟩
    have := hin a ':' (' ' :: b) (by rw [← e]; simp)
    unfold stops at this
    dsimp only at this
    rw [if_neg (by decide)] at this
    simp [mark, blankEnd] at this
  · rintro ⟨a, b, e⟩
    have := hin a ' ' ('#' :: b) (by rw [← e]; simp)
    unfold stops at this
    dsimp only at this
    rw [if_pos rfl] at this
    simp [skip] at this
  · intro hl
    obtain ⟨a, e⟩ := List.getLast?_eq_some_iff.1 hl
    have := hin a ' ' [] e
    rw [List.nil_append, stops_space hr] at this
    cases this
  · intro hf c hc hm
    obtain ⟨a, b, e⟩ := List.append_of_mem hc
    have := hin a c b e
    by_cases hq : c = '?'
    · subst hq
      exact h3 hf hc
    · have hm' : c ∈ g!",[]{}" := by
        simp only [List.mem_cons, List.not_mem_nil, or_false] at hm ⊢
        rcases hm with h | h | h | h | h | h <;> simp [h] at hq ⊢
      have hs : c ≠ ' ' := by
        rintro rfl
        exact absurd hm' (by decide)
      unfold stops at this
      dsimp only at this
      rw [if_neg hs] at this
      simp [mark, hf, (flowMark_iff c).2 hm'] at this

theorem put_some {c : Char} {o : Option (Str × Str)} {v r : Str} (h : TomlText.put c o = some (v, r)) :
    ∃ v', o = some (v', r) ∧ v = c :: v' := by
  unfold TomlText.put at h
  obtain ⟨⟨v', r'⟩, h1, h2⟩ := Option.map_eq_some_iff.1 h
  cases h2
  exact ⟨v', h1, rfl⟩

theorem single_inv : ∀ (k : Nat) {s v r : Str}, s.length ≤ k → single s = some (v, r) → ∃ raw, s = raw ++ '\'' :: r ∧ YmlSingle v raw := by
  intro k
  induction k with
  | zero =>
    intro s v r hk h
    cases s with
    | nil => simp [single] at h
    | cons c s => simp at hk
  | succ k ih =>
    intro s v r hk h
    cases s with
    | nil => simp [single] at h
    | cons c s =>
      by_cases hc : c = '\''
      · subst hc
        by_cases hq : s.head? = some '\''
        · cases s with
          | nil => cases hq
          | cons d u =>
            have : d = '\'' := by simpa using hq
            subst this
            rw [single_quote] at h
            obtain ⟨v', h1, rfl⟩ := put_some h
            obtain ⟨raw, e, hr⟩ := ih (by simp at hk; omega) h1
            exact ⟨_, by rw [e]; rfl, .quote hr⟩
        · rw [single_end hq] at h
          cases h
          exact ⟨[], rfl, .nil⟩
      · rw [single_char hc] at h
        obtain ⟨v', h1, rfl⟩ := put_some h
        obtain ⟨raw, e, hr⟩ := ih (by simp at hk; omega) h1
        exact ⟨_, by rw [e]; rfl, .char hc hr⟩

theorem hexDigit_sound {c : Char} {n : Nat} (h : TomlText.hexDigit c = some n) : HexDigit c n := by
  have hr : ∀ a b : Char, a ≤ c → c ≤ b → a.toNat ≤ c.toNat ∧ c.toNat ≤ b.toNat := fun a b h1 h2 => ⟨h1, h2⟩
  have hc : c.toNat < 128 := by
    unfold TomlText.hexDigit at h
    split at h
    · rename_i h'; have := (hr _ _ h'.1 h'.2).2; have : '9'.toNat = 57 := rfl; omega
    · split at h
      · rename_i h'; have := (hr _ _ h'.1 h'.2).2; have : 'f'.toNat = 102 := rfl; omega
      · split at h
        · rename_i h'; have := (hr _ _ h'.1 h'.2).2; have : 'F'.toNat = 70 := rfl; omega
        · cases h
  have key : ∀ k < 128, ∀ o, o = TomlText.hexDigit (Char.ofNat k) → (match o with
      | none => true
      | some n => (g!"0123456789abcdef")[n]? == some (Char.ofNat k) || (g!"0123456789ABCDEF")[n]? == some (Char.ofNat k)) = true := by
    intro k hk o ho
    subst ho
    revert k
    decide
  have := key c.toNat hc _ rfl
  rw [Char.ofNat_toNat, h] at this
  simp only [Bool.or_eq_true, beq_iff_eq] at this
  exact this

theorem hexNumber_sound {ds : Str} {acc n : Nat} (h : TomlText.hexNumber acc ds = some n) :
    ∃ vs, Each HexDigit ds vs ∧ n = vs.foldl (fun a d => a * 16 + d) acc := by
  induction ds generalizing acc with
  | nil => exact ⟨[], .nil, by simpa [TomlText.hexNumber] using h.symm⟩
  | cons c ds ih =>
    rw [TomlText.hexNumber] at h
    obtain ⟨d, hd, h⟩ := Option.bind_eq_some_iff.1 h
    obtain ⟨vs, hv, e⟩ := ih h
    exact ⟨d :: vs, .cons (hexDigit_sound hd) hv, e⟩

theorem escape_inv {s r : Str} {c : Char} (h : escape s = some (c, r)) : ∃ e, '\\' :: s = e ++ r ∧ YmlEscape c e ∧ r.length < s.length := by
  cases s with
  | nil => cases h
  | cons x s =>
    rw [escape] at h
    split at h
    · rename_i k hk
      split at h
      · rename_i hl
        obtain ⟨y, hy, e⟩ := Option.map_eq_some_iff.1 h
        cases e
        unfold TomlText.scalar at hy
        obtain ⟨n, hn, hy⟩ := Option.bind_eq_some_iff.1 hy
        split at hy
        · rename_i hs
          cases hy
          have hm : (x, k) ∈ [('x', 2), ('u', 4), ('U', 8)] := by
            simp only [escapeDigits, List.lookup_cons] at hk
            simp only [List.mem_cons, Prod.mk.injEq, List.not_mem_nil, or_false]
            split at hk
            · rename_i e; cases hk; exact .inl ⟨by simpa using e, rfl⟩
            · split at hk
              · rename_i e; cases hk; exact .inr (.inl ⟨by simpa using e, rfl⟩)
              · split at hk
                · rename_i e; cases hk; exact .inr (.inr ⟨by simpa using e, rfl⟩)
                · cases hk
          refine ⟨'\\' :: x :: s.take k, by simp, .digits hm (by simp; omega) (hexNumber_sound hn) hs, by simp; omega⟩
        · cases hy
      · cases h
    · obtain ⟨y, hy, e⟩ := Option.map_eq_some_iff.1 h
      cases e
      refine ⟨['\\', x], rfl, .short ?_, by simp⟩
      have key : ∀ (l : List (Char × Char)) (a b : Char), l.lookup a = some b → (a, b) ∈ l := by
        intro l a b h
        induction l with
        | nil => cases h
        | cons p l ih =>
          rw [List.lookup_cons] at h
          split at h
          · rename_i e
            cases h
            have : a = p.1 := by simpa using e
            rw [this]
            exact List.mem_cons_self
          · exact List.mem_cons_of_mem _ (ih h)
      exact key _ _ _ hy

theorem double_inv : ∀ (n : Nat) {s v r : Str}, double n s = some (v, r) → ∃ raw, s = raw ++ '"' :: r ∧ YmlDouble v raw := by
  intro n
  induction n with
  | zero => intro s v r h; simp [double] at h
  | succ n ih =>
    intro s v r h
    cases s with
    | nil => simp [double] at h
    | cons c s =>
      rw [double] at h
      split at h
      · rename_i hc
        subst hc
        cases h
        exact ⟨[], rfl, .nil⟩
      · rename_i hq
        split at h
        · rename_i hc
          subst hc
          obtain ⟨⟨x, t⟩, he, h⟩ := Option.bind_eq_some_iff.1 h
          obtain ⟨v', h1, rfl⟩ := put_some h
          obtain ⟨raw, e, hr⟩ := ih h1
          obtain ⟨e', e2, hx, _⟩ := escape_inv he
          exact ⟨e' ++ raw, by rw [e2, List.append_assoc, ← e], .escape hx hr⟩
        · rename_i hb
          obtain ⟨v', h1, rfl⟩ := put_some h
          obtain ⟨raw, e, hr⟩ := ih h1
          exact ⟨_, by rw [e]; rfl, .char hq hb hr⟩

theorem scalar_inv {flow : Bool} {s r : Str} {n : YNode} (h : scalar flow s = some (n, r)) : ∃ t, s = t ++ r ∧ YmlScalar flow t n := by
  cases s with
  | nil => cases h
  | cons c s =>
    unfold scalar at h
    dsimp only at h
    split at h
    · rename_i hc
      subst hc
      obtain ⟨⟨v, r'⟩, h1, e⟩ := Option.map_eq_some_iff.1 h
      cases e
      obtain ⟨raw, e, hr⟩ := single_inv _ (Nat.le_refl _) h1
      exact ⟨_, by rw [e]; simp, .single hr⟩
    · split at h
      · rename_i hc
        subst hc
        obtain ⟨⟨v, r'⟩, h1, e⟩ := Option.map_eq_some_iff.1 h
        cases e
        obtain ⟨raw, e, hr⟩ := double_inv _ h1
        exact ⟨_, by rw [e]; simp, .double hr⟩
      · split at h
        · rename_i hp
          cases h
          refine ⟨_, (plain_inv flow _).1, ?_⟩
          cases hn : isNull (plain flow (c :: s)).1
          · exact .plain (plain_sound hp) (fun hm => by rw [(isNull_iff _).2 hm] at hn; cases hn)
          · exact .null ((isNull_iff _).1 hn)
        · cases h

/-! ### Keys and brackets -/

theorem key_inv {flow : Bool} {s r : Str} {k : YNode} (h : key flow s = some (k, r)) :
    ∃ t, s = t ++ ':' :: r ∧ YmlKey flow t k ∧ blankEnd r = true := by
  unfold key at h
  obtain ⟨⟨n, u⟩, hs, h⟩ := Option.bind_eq_some_iff.1 h
  obtain ⟨t, rfl, ht⟩ := scalar_inv hs
  obtain ⟨b, hb, e, _⟩ := skip_split u
  dsimp only at h
  split at h
  · rename_i v hv
    split at h
    · rename_i hc
      cases h
      simp only [Bool.and_eq_true, Bool.not_eq_true', decide_eq_true_eq] at hc
      obtain ⟨⟨h1, h2⟩, h3⟩ := hc
      rw [hv] at e h3
      subst e
      refine ⟨t ++ b, by simp, ⟨⟨t, b, ht, hb, rfl⟩, ?_, ?_⟩, h1⟩
      · simp only [List.length_append, List.length_cons] at h3 ⊢
        omega
      · rintro x rfl
        simp [isMerge] at h2
    · cases h
  · cases h

theorem flowItems_inv {α : Type} {P : Str → α → Prop} {item : Str → Option (α × Str)} {close : Char}
    (hi : ∀ s x r, item s = some (x, r) → ∃ t, s = t ++ r ∧ P t x) :
    ∀ (n : Nat) {s r : Str} {l : List α}, flowItems item close n s = some (l, r) → ∃ t, s = t ++ close :: r ∧ YmlItems P t l := by
  intro n
  induction n with
  | zero => intro s r l h; simp [flowItems] at h
  | succ n ih =>
    intro s r l h
    rw [flowItems] at h
    obtain ⟨⟨x, u⟩, hx, h'⟩ := Option.bind_eq_some_iff.1 h
    clear h
    have h := h'
    obtain ⟨a, ha, e, _⟩ := skip_split s
    obtain ⟨t, e2, ht⟩ := hi _ _ _ hx
    obtain ⟨b, hb, e3, _⟩ := skip_split u
    dsimp only at h
    split at h
    · cases h
    · rename_i c w hw
      rw [hw] at e3
      rw [e2, e3] at e
      split at h
      · rename_i hc
        subst hc
        cases h
        exact ⟨a ++ (t ++ b), by rw [e]; simp, .one ha ht hb⟩
      · split at h
        · rename_i hc
          subst hc
          obtain ⟨⟨l', r'⟩, hl, e4⟩ := Option.map_eq_some_iff.1 h
          cases e4
          obtain ⟨t', e5, ht'⟩ := ih hl
          exact ⟨a ++ (t ++ (b ++ ',' :: t')), by rw [e, e5]; simp, .more ha ht hb ht'⟩
        · cases h

theorem flowOf_inv {α : Type} {P : Str → α → Prop} {item : Str → Option (α × Str)} {close : Char}
    (hi : ∀ s x r, item s = some (x, r) → ∃ t, s = t ++ r ∧ P t x) {s r : Str} {l : List α} (h : flowOf item close s = some (l, r)) :
    (∃ b, YmlSpaces b ∧ s = b ++ close :: r ∧ l = []) ∨ ∃ t, s = t ++ close :: r ∧ YmlItems P t l := by
  obtain ⟨b, hb, e, _⟩ := skip_split s
  unfold flowOf at h
  split at h
  · cases h
  · rename_i c u hs
    split at h
    · rename_i hc
      subst hc
      cases h
      left
      rw [hs] at e
      exact ⟨b, hb, e, rfl⟩
    · exact .inr (flowItems_inv hi _ h)

theorem pair_inv {s r : Str} {p : YNode × YNode} (h : pair s = some (p, r)) : ∃ t, s = t ++ r ∧ YmlPair t p := by
  unfold pair at h
  obtain ⟨⟨k, u⟩, hk, h⟩ := Option.bind_eq_some_iff.1 h
  obtain ⟨⟨v, w⟩, hv, e⟩ := Option.map_eq_some_iff.1 h
  cases e
  obtain ⟨t, rfl, ht, hb⟩ := key_inv hk
  obtain ⟨b, hb', e, hh⟩ := skip_split u
  obtain ⟨x, e2, hx⟩ := scalar_inv hv
  refine ⟨t ++ ':' :: (b ++ x), ?_, t, b, x, ht, ?_, hb', hx, rfl⟩
  · rw [e2] at e
    rw [e]; simp
  · rintro rfl
    rw [List.nil_append] at e
    obtain ⟨c, y, rfl, hc, _⟩ := scalar_head hx
    dsimp only at e2
    rw [e2] at e
    rw [e] at hb
    exact hc (by simpa [blankEnd] using hb)

theorem inline_inv {s r : Str} {n : YNode} (h : inline s = some (n, r)) : ∃ t, s = t ++ r ∧ YmlInline t n := by
  cases s with
  | nil => cases h
  | cons c s =>
    unfold inline at h
    dsimp only at h
    split at h
    · rename_i hc
      subst hc
      obtain ⟨⟨l, r'⟩, h1, e⟩ := Option.map_eq_some_iff.1 h
      cases e
      rcases flowOf_inv (P := YmlScalar true) (fun s x r h => scalar_inv h) h1 with ⟨b, hb, e, rfl⟩ | ⟨t, e, ht⟩
      · exact ⟨_, by rw [e]; simp, .emptySeq hb⟩
      · exact ⟨_, by rw [e]; simp, .seq ht⟩
    · split at h
      · rename_i hc
        subst hc
        obtain ⟨⟨l, r'⟩, h1, e⟩ := Option.map_eq_some_iff.1 h
        cases e
        rcases flowOf_inv (P := YmlPair) (fun s x r h => pair_inv h) h1 with ⟨b, hb, e, rfl⟩ | ⟨t, e, ht⟩
        · exact ⟨_, by rw [e]; simp, .emptyMap hb⟩
        · exact ⟨_, by rw [e]; simp, .map ht⟩
      · obtain ⟨t, e, ht⟩ := scalar_inv h
        exact ⟨t, e, .scalar ht⟩

/-! ### Lines -/

theorem lastOn_inv {s : Str} {n : YNode} (h : lastOn s = some n) : ∃ t r, s = t ++ r ∧ YmlInline t n ∧ YmlTail r := by
  unfold lastOn at h
  obtain ⟨⟨m, r⟩, h1, h2⟩ := Option.bind_eq_some_iff.1 h
  split at h2
  · rename_i ht
    cases h2
    obtain ⟨t, e, hi⟩ := inline_inv h1
    exact ⟨t, r, e, hi, tail_iff.1 ht⟩
  · cases h2

/-- What is behind a colon or a dash begins with a space, if there is something. -/
theorem behind {r : Str} (hb : blankEnd r = true) (ht : tail r = false) : ∃ b, b ≠ [] ∧ YmlSpaces b ∧ r = b ++ skip r := by
  obtain ⟨b, hs, e, hh⟩ := skip_split r
  refine ⟨b, ?_, hs, e⟩
  rintro rfl
  rw [List.nil_append] at e
  rw [← e] at hh
  cases r with
  | nil => cases ht
  | cons c r => exact hh (by simpa [blankEnd] using hb)

theorem keyLine_inv {i : Nat} {s : Str} {toks : List Tok} (h : keyLine i s = some toks) : YmlBody i s toks := by
  unfold keyLine at h
  obtain ⟨⟨k, r⟩, hk, h'⟩ := Option.bind_eq_some_iff.1 h
  clear h
  have h := h'
  obtain ⟨t, rfl, ht, hb⟩ := key_inv hk
  split at h
  · rename_i hr
    cases h
    exact .key ht (tail_iff.1 hr)
  · rename_i hr
    obtain ⟨v, hv, e⟩ := Option.map_eq_some_iff.1 h
    cases e
    obtain ⟨b, hne, hs, e⟩ := behind hb (by simpa using hr)
    obtain ⟨x, y, e2, hx, hy⟩ := lastOn_inv hv
    dsimp only at e e2
    rw [e2] at e
    rw [e]
    exact .keyValue ht hne hs hx hy

theorem body_inv : ∀ (n : Nat) {i : Nat} {s : Str} {toks : List Tok}, body n i s = some toks → YmlBody i s toks := by
  intro n
  induction n with
  | zero => intro i s toks h; simp [body] at h
  | succ n ih =>
    intro i s toks h
    cases s with
    | nil => simp [body] at h
    | cons c r =>
      rw [body] at h
      split at h
      · rename_i hc
        obtain ⟨rfl, hb⟩ := hc
        split at h
        · rename_i ht
          cases h
          exact .dash (tail_iff.1 ht)
        · rename_i ht
          obtain ⟨b, hne, hs, e⟩ := behind hb (by simpa using ht)
          split at h
          · rename_i v hv
            cases h
            obtain ⟨x, y, e2, hx, hy⟩ := lastOn_inv hv
            rw [e2] at e
            rw [e]
            exact .dashValue hne hs hx hy
          · obtain ⟨ts, hts, e2⟩ := Option.map_eq_some_iff.1 h
            subst e2
            have hl : r.length - (skip r).length = b.length := by
              have := congrArg List.length e
              rw [List.length_append] at this
              omega
            rw [hl] at hts
            have := YmlBody.dashMore hne hs (ih hts)
            rwa [← e] at this
      · exact keyLine_inv h

theorem line_inv {l : Str} {toks : List Tok} (h : line l = some toks) : YmlFullLine l toks := by
  unfold line at h
  split at h
  · cases h
  · rename_i hc
    rw [Bool.not_eq_true, Bool.or_eq_false_iff, Bool.not_eq_false'] at hc
    refine ⟨?_, allOk_iff.1 hc.1, docMark_iff.1 hc.2⟩
    obtain ⟨b, hb, e, _⟩ := skip_split l
    split at h
    · rename_i hs
      cases h
      rw [hs, List.append_nil] at e
      rw [e]
      exact .blank hb
    · rename_i c r hs
      split at h
      · rename_i hc
        subst hc
        cases h
        rw [hs] at e
        rw [e]
        exact .comment hb
      · rw [hs] at e
        have hl : l.length - (r.length + 1) = b.length := by
          have := congrArg List.length e
          rw [List.length_append, List.length_cons] at this
          omega
        rw [hl] at h
        rw [e]
        exact .body hb (body_inv _ h)

theorem lines_inv : ∀ {s : Str} {toks : List Tok}, lines (Str.splitChar '\n' s) = some toks → YmlLines s toks := by
  have key : ∀ (ls : List Str) (toks : List Tok), ls ≠ [] → lines ls = some toks → YmlLines (Str.join ['\n'] ls) toks := by
    intro ls
    induction ls with
    | nil => exact fun _ h => absurd rfl h
    | cons l ls ih =>
      intro toks _ h
      rw [lines] at h
      obtain ⟨a, ha, h⟩ := Option.bind_eq_some_iff.1 h
      obtain ⟨b, hb, e⟩ := Option.map_eq_some_iff.1 h
      subst e
      cases ls with
      | nil =>
        cases hb
        rw [List.append_nil]
        exact .last (line_inv ha)
      | cons l' ls =>
        have := YmlLines.line (line_inv ha) (ih b (by simp) hb)
        simpa [Str.join] using this
  intro s toks h
  have := key _ _ (Str.splitChar_ne_nil _ _) h
  rwa [Str.join_splitChar] at this

/-! ### Indentation -/

theorem tree_of_block {i : Nat} {m : Bool} {ts : List Tok} {es : List (Option YNode × YNode)} (h : YmlBlock i m ts es) :
    YmlTree m es (build m es) := by
  have hk : ∀ e ∈ es, e.1.isSome = m := by
    induction h with
    | nil => simp
    | inline hk _ ih => simpa [hk] using ih
    | null hk _ ih => simpa [hk] using ih
    | nested hk _ _ _ _ _ _ ih => simpa [hk] using ih
  cases m with
  | true =>
    have e : es = (es.map fun e => (e.1.getD Yaml.null, e.2)).map fun e => (some e.1, e.2) := by
      rw [List.map_map]
      refine (List.map_id' es).symm.trans (List.map_congr_left fun e he => ?_)
      obtain ⟨k, v⟩ := e
      cases k with
      | none => cases hk _ he
      | some k => rfl
    have := YmlTree.map (es.map fun e => (e.1.getD Yaml.null, e.2))
    rw [← e] at this
    exact this
  | false =>
    have e : es = (es.map (·.2)).map fun v => (none, v) := by
      rw [List.map_map]
      refine (List.map_id' es).symm.trans (List.map_congr_left fun e he => ?_)
      obtain ⟨k, v⟩ := e
      cases k with
      | none => rfl
      | some k => cases hk _ he
    have := YmlTree.seq (es.map (·.2))
    rw [← e] at this
    exact this

theorem nests_iff {i : Nat} {m : Bool} {u : Tok} (h : nests i m u = true) :
    i < u.indent ∨ (i = u.indent ∧ m = true ∧ u.key.isSome = false) := by
  unfold nests at h
  simp only [Bool.or_eq_true, decide_eq_true_eq, Bool.and_eq_true, beq_iff_eq] at h
  rcases h with h | ⟨⟨h1, h2⟩, h3⟩
  · exact .inl h
  · refine .inr ⟨h2.symm, h1, ?_⟩
    cases hk : u.key with
    | none => rfl
    | some k => rw [hk] at h3; cases h3

theorem entries_inv : ∀ (n : Nat) {i : Nat} {m : Bool} {toks rest : List Tok} {es : List (Option YNode × YNode)},
    entries n i m toks = some (es, rest) → ∃ ts, toks = ts ++ rest ∧ YmlBlock i m ts es ∧
      (∀ u us, toks = u :: us → u.indent = i → u.key.isSome = m → ts ≠ []) := by
  intro n
  induction n with
  | zero => intro i m toks rest es h; simp [entries] at h
  | succ n ih =>
    intro i m toks rest es h
    cases toks with
    | nil =>
      rw [entries] at h
      cases h
      exact ⟨[], rfl, .nil, fun u us e => by cases e⟩
    | cons t toks =>
      rw [entries] at h
      split at h
      · rename_i hc
        obtain ⟨hi, hm⟩ := hc
        obtain ⟨⟨v, r⟩, hv, h⟩ := Option.bind_eq_some_iff.1 h
        obtain ⟨⟨es', r'⟩, he, e⟩ := Option.map_eq_some_iff.1 h
        cases e
        obtain ⟨ts, e2, hb, _⟩ := ih he
        dsimp only at e2
        obtain ⟨j, k, val⟩ := t
        dsimp only at hi hm hv ⊢
        subst hi
        unfold valueOf at hv
        split at hv
        · cases hv
          exact ⟨_ :: ts, by rw [e2]; rfl, .inline hm hb, fun _ _ _ _ _ => by simp⟩
        · cases hv
          exact ⟨_ :: ts, by rw [e2]; rfl, .null hm hb, fun _ _ _ _ _ => by simp⟩
        · rename_i u us _
          split at hv
          · rename_i hn
            obtain ⟨⟨es'', r''⟩, he', e⟩ := Option.map_eq_some_iff.1 hv
            cases e
            obtain ⟨ts', e3, hb', hne⟩ := ih he'
            refine ⟨⟨j, k, none⟩ :: (ts' ++ ts), ?_, ?_, fun _ _ _ _ _ => by simp⟩
            · rw [e3, show r'' = ts ++ r' from e2]; simp
            · exact .nested hm (nests_iff hn) (hne u us rfl rfl rfl) hb' (tree_of_block hb') hb
          · cases hv
            exact ⟨_ :: ts, by rw [e2]; rfl, .null hm hb, fun _ _ _ _ _ => by simp⟩
      · rename_i hc
        cases h
        exact ⟨[], rfl, .nil, fun u us e h1 h2 => by cases e; exact absurd ⟨h1, h2⟩ hc⟩

theorem scan_inv {s : Str} {r : Option YNode} (h : scan s = some r) : YmlDoc s r := by
  unfold scan at h
  obtain ⟨toks, ht, h⟩ := Option.bind_eq_some_iff.1 h
  have hl := lines_inv ht
  unfold document at h
  split at h
  · cases h
    exact .none hl
  · rename_i t ts
    obtain ⟨⟨es, rest⟩, he, h⟩ := Option.bind_eq_some_iff.1 h
    split at h
    · rename_i hr
      cases h
      obtain ⟨ts', e, hb, _⟩ := entries_inv _ he
      have : rest = [] := by simpa using hr
      rw [this, List.append_nil] at e
      rw [← e] at hb
      exact .some hl (by simp) hb (tree_of_block hb)
    · cases h

end Osv.YamlScan
