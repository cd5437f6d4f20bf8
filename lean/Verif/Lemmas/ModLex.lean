import Verif.Lemmas.ModFile
/-! # Lines and words of go.mod files -/
namespace Osv.ModFile
open Str Spec Spec.ModText

/-! ## Words -/

theorem isIdent_iff {print : Char → Bool} {c : Char} : isIdent print c = true ↔ BareChar print c := by
  unfold isIdent BareChar
  by_cases h : c.toNat < 128
  · rw [if_pos h]
    simp only [Bool.and_eq_true, decide_eq_true_eq, Bool.not_eq_true']
    constructor
    · rintro ⟨⟨h1, h2⟩, h3⟩
      exact .inl ⟨h1, h2, by simpa using h3⟩
    · rintro (⟨h1, h2, h3⟩ | ⟨h1, _⟩)
      · exact ⟨⟨h1, h2⟩, by simpa using h3⟩
      · omega
  · rw [if_neg h]
    constructor
    · intro hp; exact .inr ⟨by omega, hp⟩
    · rintro (⟨_, h2, _⟩ | ⟨_, hp⟩)
      · omega
      · exact hp

theorem bare_not {print : Char → Bool} {c : Char} (h : BareChar print c) : c ≠ ' ' ∧ c ≠ '\t' ∧ c ≠ '\r' ∧ c ≠ '\n' ∧ c ∉ g!"()[]{}," := by
  rcases h with ⟨h1, h2, h3⟩ | ⟨h1, _⟩
  · refine ⟨?_, ?_, ?_, ?_, h3⟩ <;> (rintro rfl; revert h1; decide)
  · refine ⟨?_, ?_, ?_, ?_, ?_⟩
    · rintro rfl; revert h1; decide
    · rintro rfl; revert h1; decide
    · rintro rfl; revert h1; decide
    · rintro rfl; revert h1; decide
    · intro hm
      have key : ∀ d ∈ g!"()[]{},", ¬ 128 ≤ d.toNat := by decide
      exact key c hm h1

/-- A comment of either kind begins here. -/
def CommentAt (s : Str) : Prop := ∃ d t, s = '/' :: d :: t ∧ (d = '/' ∨ d = '*')

/-- The rest of a bare word, up to `rest`. -/
inductive Scan (print : Char → Bool) (rest : Str) : Str → Prop
  | nil : ((∀ c t, rest = c :: t → ¬ BareChar print c) ∨ ∃ t, rest = '/' :: '/' :: t) → Scan print rest []
  | cons {c : Char} {w : Str} : BareChar print c → ¬ CommentAt (c :: (w ++ rest)) → Scan print rest w → Scan print rest (c :: w)

theorem scan_iff {print : Char → Bool} {rest w : Str} : Scan print rest w ↔ (∀ c ∈ w, BareChar print c) ∧
    (∀ a b d, w ++ rest = a ++ '/' :: d :: b → d = '/' ∨ d = '*' → w.length ≤ a.length) ∧
    ((∀ c t, rest = c :: t → ¬ BareChar print c) ∨ ∃ t, rest = '/' :: '/' :: t) := by
  induction w with
  | nil =>
    constructor
    · intro h
      cases h with
      | nil h => exact ⟨by simp, fun a b d _ _ => Nat.zero_le _, h⟩
    · rintro ⟨_, _, h⟩; exact .nil h
  | cons c w ih =>
    constructor
    · intro h
      cases h with
      | cons h1 h2 h3 =>
        obtain ⟨a1, a2, a3⟩ := ih.1 h3
        refine ⟨?_, ?_, a3⟩
        · intro d hd
          rcases List.mem_cons.1 hd with rfl | hd
          · exact h1
          · exact a1 d hd
        · intro a b d e hd
          cases a with
          | nil => exact absurd ⟨d, b, e, hd⟩ h2
          | cons x a =>
            injection e with _ e
            have := a2 a b d e hd
            simp; omega
    · rintro ⟨a1, a2, a3⟩
      refine .cons (a1 c (by simp)) ?_ (ih.2 ⟨fun d hd => a1 d (by simp [hd]), ?_, a3⟩)
      · rintro ⟨d, t, e, hd⟩
        have := a2 [] t d e hd
        simp at this
      · intro a b d e hd
        have := a2 (c :: a) b d (by simp [e]) hd
        simp at this; omega

theorem commentAt_iff {s : Str} : CommentAt s ↔ hasPrefix s g!"//" = true ∨ hasPrefix s g!"/*" = true := by
  rw [hasPrefix_iff, hasPrefix_iff]
  constructor
  · rintro ⟨d, t, rfl, rfl | rfl⟩
    · exact .inl ⟨t, rfl⟩
    · exact .inr ⟨t, rfl⟩
  · rintro (⟨t, rfl⟩ | ⟨t, rfl⟩)
    · exact ⟨'/', t, rfl, .inl rfl⟩
    · exact ⟨'*', t, rfl, .inr rfl⟩

theorem slash_bare (print : Char → Bool) : BareChar print '/' := .inl (by decide)

theorem scanIdent_iff {print : Char → Bool} {s w left : Str} : scanIdent print s = some (w, left) ↔ s = w ++ left ∧ Scan print left w := by
  induction s generalizing w with
  | nil =>
    unfold scanIdent
    constructor
    · intro h
      injection h with h; injection h with h1 h2
      subst h1 h2
      exact ⟨rfl, .nil (.inl (by simp))⟩
    · rintro ⟨e, h⟩
      have := e.symm
      rw [List.append_eq_nil_iff] at this
      rw [this.1, this.2]
  | cons c s ih =>
    unfold scanIdent
    by_cases hi : isIdent print c = true
    · rw [if_pos hi]
      by_cases h1 : hasPrefix (c :: s) g!"//" = true
      · rw [if_pos h1]
        constructor
        · intro h
          injection h with h; injection h with e1 e2
          subst e1 e2
          obtain ⟨t, ht⟩ := (hasPrefix_iff _ _).1 h1
          exact ⟨rfl, .nil (.inr ⟨t, ht⟩)⟩
        · rintro ⟨e, h⟩
          cases h with
          | nil h => rw [e]; rfl
          | cons _ hc _ => exact absurd (commentAt_iff.2 (.inl (by rw [← List.cons_append, ← e]; exact h1))) hc
      · rw [if_neg h1]
        by_cases h2 : hasPrefix (c :: s) g!"/*" = true
        · rw [if_pos h2]
          constructor
          · simp
          · rintro ⟨e, h⟩
            cases h with
            | nil h =>
              obtain ⟨t, ht⟩ := (hasPrefix_iff _ _).1 h2
              rw [List.nil_append] at e
              rcases h with h | ⟨u, hu⟩
              · exact absurd (slash_bare print) (h '/' ('*' :: t) (by rw [← e]; exact ht))
              · rw [← e, ht] at hu; injection hu with _ hu; injection hu with hu _; exact absurd hu (by decide)
            | cons _ hc _ => exact absurd (commentAt_iff.2 (.inr (by rw [← List.cons_append, ← e]; exact h2))) hc
        · rw [if_neg h2]
          constructor
          · intro h
            cases hs : scanIdent print s with
            | none => rw [hs] at h; simp at h
            | some x =>
              obtain ⟨w', l'⟩ := x
              rw [hs] at h
              simp only [Option.map_some, Option.some.injEq, Prod.mk.injEq] at h
              obtain ⟨rfl, rfl⟩ := h
              obtain ⟨e, hsc⟩ := ih.1 hs
              refine ⟨by rw [e]; rfl, .cons (isIdent_iff.1 hi) ?_ hsc⟩
              rw [commentAt_iff, ← e]
              rintro (h | h)
              · exact h1 h
              · exact h2 h
          · rintro ⟨e, h⟩
            cases h with
            | nil h =>
              rw [List.nil_append] at e
              rcases h with h | ⟨u, hu⟩
              · exact absurd (isIdent_iff.1 hi) (h c s e.symm)
              · exact absurd ((hasPrefix_iff _ _).2 ⟨u, e.trans hu⟩) h1
            | cons _ _ hsc =>
              injection e with e1 e2
              subst e1
              rw [ih.2 ⟨e2, hsc⟩]
              rfl
    · rw [if_neg hi]
      constructor
      · intro h
        injection h with h; injection h with e1 e2
        subst e1 e2
        refine ⟨rfl, .nil (.inl ?_)⟩
        intro d t e
        injection e with e _
        subst e
        exact fun hb => hi (isIdent_iff.2 hb)
      · rintro ⟨e, h⟩
        cases h with
        | nil h => rw [e]; rfl
        | cons hb _ _ =>
          injection e with e1 _
          subst e1
          exact absurd (isIdent_iff.2 hb) hi

theorem scanString_of {q : Char} {t left : Str} (hq : q ≠ '\\') (h : Enclosed q t) (hn : '\n' ∉ t) :
    scanString q (t ++ left) = some (t, left) := by
  induction h with
  | close =>
    have : q ≠ '\n' := by rintro rfl; simp at hn
    conv => lhs; unfold scanString
    dsimp only [List.cons_append, List.nil_append]
    rw [if_neg this, if_pos rfl]
  | @plain c t h1 h2 _ ih =>
    have hc : c ≠ '\n' := by rintro rfl; simp at hn
    have := ih (fun hm => hn (by simp [hm]))
    conv => lhs; unfold scanString
    dsimp only [List.cons_append]
    rw [if_neg hc, if_neg h1, if_neg (by rintro ⟨a, b⟩; exact b (h2 a)), this]
    rfl
  | @escaped c t h1 _ ih =>
    have := ih (fun hm => hn (by simp [hm]))
    conv => lhs; unfold scanString
    dsimp only [List.cons_append]
    rw [if_neg (by decide), if_neg (Ne.symm hq), if_pos ⟨rfl, h1⟩, this]
    rfl

theorem scanString_sound (q : Char) : ∀ (n : Nat) (s t left : Str), s.length ≤ n → scanString q s = some (t, left) →
    s = t ++ left ∧ Enclosed q t := by
  intro n
  induction n with
  | zero =>
    intro s t left hl h
    obtain rfl := List.length_eq_zero_iff.1 (Nat.le_zero.1 hl)
    simp [scanString] at h
  | succ n ih =>
    intro s t left hl h
    cases s with
    | nil => simp [scanString] at h
    | cons c rest =>
      rw [scanString.eq_def] at h
      dsimp only at h
      split at h
      · simp at h
      split at h
      · rename_i _ hc
        injection h with h; injection h with e1 e2
        subst e1 e2 hc
        exact ⟨rfl, .close⟩
      split at h
      · rename_i _ hc hb
        split at h
        · simp at h
        · rename_i d rest'
          cases hs : scanString q rest' with
          | none => rw [hs] at h; simp at h
          | some x =>
            obtain ⟨t', l'⟩ := x
            rw [hs] at h
            simp only [Option.map_some, Option.some.injEq, Prod.mk.injEq] at h
            obtain ⟨rfl, rfl⟩ := h
            obtain ⟨e, he⟩ := ih rest' t' l' (by simp at hl; omega) hs
            obtain ⟨rfl, hq⟩ := hb
            exact ⟨by rw [e]; rfl, .escaped hq he⟩
      · rename_i _ hc hb
        cases hs : scanString q rest with
        | none => rw [hs] at h; simp at h
        | some x =>
          obtain ⟨t', l'⟩ := x
          rw [hs] at h
          simp only [Option.map_some, Option.some.injEq, Prod.mk.injEq] at h
          obtain ⟨rfl, rfl⟩ := h
          obtain ⟨e, he⟩ := ih rest t' l' (by simp at hl; omega) hs
          refine ⟨by rw [e]; rfl, .plain hc ?_ he⟩
          intro e1
          exact Classical.byContradiction fun hq => hb ⟨e1, hq⟩

/-! ## The lexer without fuel -/

theorem length_drop_le (p : Char → Bool) (s : Str) : ((s.dropWhile p).drop 1).length ≤ s.length - 1 := by
  rw [List.length_drop]
  have : (s.dropWhile p).length ≤ s.length := (List.dropWhile_suffix p).length_le
  omega

theorem lexFrom_fuel (print : Char → Bool) : ∀ (n m : Nat) (u : Bool) (s : Str), s.length < n → s.length < m →
    lexFrom print n u s = lexFrom print m u s := by
  intro n
  induction n with
  | zero => intro m u s h; omega
  | succ n ih =>
    intro m u s h1 h2
    cases m with
    | zero => omega
    | succ m =>
      cases s with
      | nil => rfl
      | cons c rest =>
        simp only [List.length_cons] at h1 h2
        have hr : ∀ v, lexFrom print n v rest = lexFrom print m v rest := fun v => ih m v rest (by omega) (by omega)
        have hc : lexFrom print n false (((c :: rest).dropWhile (· != '\n')).drop 1) = lexFrom print m false (((c :: rest).dropWhile (· != '\n')).drop 1) := by
          have := length_drop_le (· != '\n') (c :: rest)
          simp only [List.length_cons] at this
          exact ih m _ _ (by omega) (by omega)
        have hs : ∀ x, scanString c rest = some x → lexFrom print n true x.2 = lexFrom print m true x.2 := by
          rintro ⟨t, l⟩ hx
          obtain ⟨e, _⟩ := scanString_sound c _ _ _ _ (Nat.le_refl _) hx
          have : l.length ≤ rest.length := by rw [e]; simp
          exact ih m _ _ (by dsimp only; omega) (by dsimp only; omega)
        have hi : ∀ x, scanIdent print rest = some x → lexFrom print n true x.2 = lexFrom print m true x.2 := by
          rintro ⟨t, l⟩ hx
          obtain ⟨e, _⟩ := scanIdent_iff.1 hx
          have : l.length ≤ rest.length := by rw [e]; simp
          exact ih m _ _ (by dsimp only; omega) (by dsimp only; omega)
        unfold lexFrom
        dsimp only
        rw [hr, hr, hr, hc]
        cases h3 : scanString c rest with
        | none =>
          cases h4 : scanIdent print rest with
          | none => rfl
          | some y => dsimp only; rw [hi y h4]
        | some x =>
          cases h4 : scanIdent print rest with
          | none => dsimp only; rw [hs x h3]
          | some y => dsimp only; rw [hi y h4, hs x h3]

/-- The tokens of the rest of a file. -/
def toks (print : Char → Bool) (u : Bool) (s : Str) : Option (List Tok) := lexFrom print (s.length + 1) u s

theorem toks_of_fuel {print : Char → Bool} {n : Nat} {u : Bool} {s : Str} (h : s.length < n) : lexFrom print n u s = toks print u s :=
  lexFrom_fuel print _ _ _ _ h (Nat.lt_succ_self _)

theorem toks_nil {print : Char → Bool} {u : Bool} : toks print u [] = some [] := rfl

theorem toks_gap {print : Char → Bool} {u : Bool} {c : Char} {s : Str} (h : c = ' ' ∨ c = '\t' ∨ c = '\r') :
    toks print u (c :: s) = toks print u s := by
  unfold toks
  rw [List.length_cons]
  conv => lhs; unfold lexFrom
  rw [if_pos h]

theorem toks_comment {print : Char → Bool} {u : Bool} {s : Str} (h : hasPrefix s g!"//" = true) :
    toks print u s = (toks print false ((s.dropWhile (· != '\n')).drop 1)).map fun l =>
      (if u then Tok.eolComment else Tok.comment (s.takeWhile (· != '\n'))) :: l := by
  cases s with
  | nil => simp [hasPrefix] at h
  | cons c s =>
    have hc : c = '/' := by
      obtain ⟨t, ht⟩ := (hasPrefix_iff _ _).1 h
      injection ht
    conv => lhs; unfold toks lexFrom
    dsimp only
    rw [if_neg (by rw [hc]; decide), if_pos h]
    rw [toks_of_fuel (by
      have := length_drop_le (· != '\n') (c :: s)
      simp only [List.length_cons] at this ⊢
      omega)]

theorem toks_newline {print : Char → Bool} {u : Bool} {s : Str} :
    toks print u ('\n' :: s) = (toks print false s).map (Tok.newline :: ·) := by
  unfold toks
  rw [List.length_cons]
  conv => lhs; unfold lexFrom
  rw [if_neg (by decide), if_neg (by simp [hasPrefix]), if_neg (by simp [hasPrefix]), if_pos rfl]

theorem punct_not {c : Char} (h : c ∈ g!"()[]{},") : ¬ (c = ' ' ∨ c = '\t' ∨ c = '\r') ∧ c ≠ '\n' ∧ c ≠ '/' := by
  have key : ∀ c ∈ g!"()[]{},", ¬ (c = ' ' ∨ c = '\t' ∨ c = '\r') ∧ c ≠ '\n' ∧ c ≠ '/' := by decide
  exact key c h

theorem not_slash {c : Char} {s p : Str} (h : c ≠ '/') : hasPrefix (c :: s) ('/' :: p) = false := by
  rw [Bool.eq_false_iff]
  intro hp
  obtain ⟨t, ht⟩ := (hasPrefix_iff _ _).1 hp
  injection ht with ht _
  exact h ht

theorem toks_punct {print : Char → Bool} {u : Bool} {c : Char} {s : Str} (h : c ∈ g!"()[]{},") :
    toks print u (c :: s) = (toks print true s).map (Tok.punct c :: ·) := by
  obtain ⟨h1, h2, h3⟩ := punct_not h
  unfold toks
  rw [List.length_cons]
  conv => lhs; unfold lexFrom
  rw [if_neg h1, if_neg (by rw [not_slash h3]; simp), if_neg (by rw [not_slash h3]; simp), if_neg h2, if_pos (by simpa using h)]

theorem toks_quoted {print : Char → Bool} {u : Bool} {c : Char} {s : Str} (h : c = '"' ∨ c = '`') :
    toks print u (c :: s) = match scanString c s with
      | none => none
      | some (t, left) => (toks print true left).map (Tok.word (c :: t) :: ·) := by
  have key : ∀ c, (c = '"' ∨ c = '`') → ¬ (c = ' ' ∨ c = '\t' ∨ c = '\r') ∧ c ≠ '\n' ∧ c ≠ '/' ∧ (g!"()[]{},").contains c = false := by
    rintro c (rfl | rfl) <;> decide
  obtain ⟨h1, h2, h3, h4⟩ := key c h
  conv => lhs; unfold toks
  rw [List.length_cons]
  conv => lhs; unfold lexFrom
  rw [if_neg h1, if_neg (by rw [not_slash h3]; simp), if_neg (by rw [not_slash h3]; simp), if_neg h2, if_neg (by rw [h4]; simp), if_pos h]
  cases hs : scanString c s with
  | none => rfl
  | some x =>
    obtain ⟨t, left⟩ := x
    obtain ⟨e, _⟩ := scanString_sound c _ _ _ _ (Nat.le_refl _) hs
    dsimp only
    rw [toks_of_fuel (by rw [e]; simp; omega)]

theorem toks_bare {print : Char → Bool} {u : Bool} {c : Char} {s : Str} (hb : BareChar print c) (hq : ¬ (c = '"' ∨ c = '`')) (hc : ¬ CommentAt (c :: s)) :
    toks print u (c :: s) = match scanIdent print s with
      | none => none
      | some (t, left) => (toks print true left).map (Tok.word (c :: t) :: ·) := by
  obtain ⟨h1, h2, h3, h4, h5⟩ := bare_not hb
  rw [commentAt_iff, not_or] at hc
  conv => lhs; unfold toks
  rw [List.length_cons]
  conv => lhs; unfold lexFrom
  rw [if_neg (by simp [h1, h2, h3]), if_neg hc.1, if_neg hc.2, if_neg h4, if_neg (by simpa using h5), if_neg hq, if_pos (isIdent_iff.2 hb)]
  cases hs : scanIdent print s with
  | none => rfl
  | some x =>
    obtain ⟨t, left⟩ := x
    obtain ⟨e, _⟩ := scanIdent_iff.1 hs
    dsimp only
    rw [toks_of_fuel (by rw [e]; simp; omega)]

theorem toks_bad {print : Char → Bool} {u : Bool} {c : Char} {s : Str} (h1 : ¬ (c = ' ' ∨ c = '\t' ∨ c = '\r')) (h2 : ¬ hasPrefix (c :: s) g!"//" = true)
    (h3 : c ≠ '\n') (h4 : c ∉ g!"()[]{},") (h5 : ¬ (c = '"' ∨ c = '`')) (h6 : hasPrefix (c :: s) g!"/*" = true ∨ ¬ BareChar print c) :
    toks print u (c :: s) = none := by
  unfold toks
  rw [List.length_cons]
  unfold lexFrom
  rw [if_neg h1, if_neg h2]
  by_cases h7 : hasPrefix (c :: s) g!"/*" = true
  · rw [if_pos h7]
  · rw [if_neg h7, if_neg h3, if_neg (by simpa using h4), if_neg h5, if_neg]
    rw [isIdent_iff]
    rcases h6 with h6 | h6
    · exact absurd h6 h7
    · exact h6

end Osv.ModFile
