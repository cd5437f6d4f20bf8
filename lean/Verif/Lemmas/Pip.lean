import Verif.Model.LockPip
import Verif.Spec.Pip
import Verif.Lemmas.RegexFirst
import Verif.Lemmas.RegexMatch
import Verif.Lemmas.Text
import Verif.Lemmas.Ecosystem
import Verif.Lemmas.Scanner
/-! # requirements.txt lines -/
namespace Osv
open Str Re Spec

namespace Pip

theorem replicate_snoc (n : Nat) (c : Char) : List.replicate n c ++ [c] = c :: List.replicate n c := by
  induction n with
  | zero => rfl
  | succ n ih => rw [List.replicate_succ, List.cons_append, ih]

/-- Pairs of backslashes. -/
theorem matches_pairs_sound {r : Re} {bol : Bool} {k k' : Caps} {x rest : Str} (h : Matches r bol k x rest k') :
    r = star true (cap 2 (seq (ch '\\') (ch '\\'))) → ∃ n, x = List.replicate (2 * n) '\\' := by
  induction h with
  | starNil => intro _; exact ⟨0, rfl⟩
  | starCons hne h1 h2 _ ih2 =>
    intro e
    injection e with e1 e2
    subst e1 e2
    obtain ⟨n, hn⟩ := ih2 rfl
    obtain ⟨_, h1, _⟩ := matches_cap.1 h1
    obtain ⟨y, z, _, rfl, hy, hz⟩ := matches_seq.1 h1
    obtain ⟨rfl, _⟩ := matches_ch.1 hy
    obtain ⟨rfl, _⟩ := matches_ch.1 hz
    subst hn
    refine ⟨n + 1, ?_⟩
    rw [show 2 * (n + 1) = 2 * n + 1 + 1 by omega, List.replicate_succ, List.replicate_succ]
    rfl
  | _ => intro e; cases e

theorem matches_pairs (n : Nat) (bol : Bool) (k : Caps) (rest : Str) :
    ∃ k', Matches (star true (cap 2 (seq (ch '\\') (ch '\\')))) bol k (List.replicate (2 * n) '\\') rest k' := by
  induction n generalizing bol k with
  | zero => exact ⟨k, .starNil⟩
  | succ n ih =>
    obtain ⟨k', h⟩ := ih false ((2, g!"\\\\") :: k)
    refine ⟨k', ?_⟩
    rw [show 2 * (n + 1) = 2 * n + 1 + 1 by omega, List.replicate_succ, List.replicate_succ]
    refine .starCons (x := g!"\\\\") (by simp) ?_ h
    refine matches_cap.2 ⟨k, matches_seq.2 ⟨['\\'], ['\\'], k, rfl, matches_ch.2 ⟨rfl, rfl⟩, matches_ch.2 ⟨rfl, rfl⟩⟩, rfl⟩

theorem continuation_iff (l : Str) : isLineContinuation l = true ↔ OddBackslashes l := by
  unfold isLineContinuation
  rw [isMatch_iff]
  constructor
  · rintro ⟨pre, x, post, k, rfl, h⟩
    obtain ⟨y, x, _, rfl, hy, h⟩ := matches_cat_cons.1 h
    obtain ⟨z, x, _, rfl, hz, h⟩ := matches_cat_cons.1 h
    obtain ⟨u, x, _, rfl, hu, h⟩ := matches_cat_cons.1 h
    obtain ⟨rfl, _⟩ := matches_ch.1 hu
    obtain ⟨rfl, rfl, _⟩ := matches_eot.1 h
    obtain ⟨n, rfl⟩ := matches_pairs_sound hz rfl
    obtain ⟨_, hy, _⟩ := matches_cap.1 hy
    refine ⟨pre ++ y, n, by simp [List.replicate_succ, replicate_snoc], ?_⟩
    rcases matches_alt.1 hy with hy | hy
    · obtain ⟨c, rfl, hc, _⟩ := matches_cls.1 hy
      intro u e
      have := List.append_inj_right' e rfl
      simp at this hc
      exact hc this
    · obtain ⟨hb, rfl, _⟩ := matches_bot.1 hy
      have : pre = [] := by simpa using hb
      subst this
      intro u e
      simp at e
  · rintro ⟨t, n, rfl, ht⟩
    have tail : ∀ bol k, ∃ k', Matches (cat [star true (cap 2 (seq (ch '\\') (ch '\\'))), ch '\\', eot]) bol k
        (List.replicate (2 * n + 1) '\\') [] k' := by
      intro bol k
      obtain ⟨k', h⟩ := matches_pairs n bol k (['\\'] ++ [])
      refine ⟨k', matches_cat_cons.2 ⟨_, ['\\'], k', by rw [replicate_snoc, List.replicate_succ], h, ?_⟩⟩
      exact matches_cat_cons.2 ⟨['\\'], [], k', rfl, matches_ch.2 ⟨rfl, rfl⟩, matches_eot.2 ⟨rfl, rfl, rfl⟩⟩
    rcases List.eq_nil_or_concat t with rfl | ⟨u, c, rfl⟩
    · obtain ⟨k', h⟩ := tail true [(1, [])]
      exact ⟨[], _, [], k', by simp, matches_cat_cons.2 ⟨[], List.replicate (2 * n + 1) '\\', _, rfl,
        matches_cap.2 ⟨[], matches_alt.2 (Or.inr (matches_bot.2 ⟨rfl, rfl, rfl⟩)), rfl⟩, h⟩⟩
    · obtain ⟨k', h⟩ := tail false [(1, [c])]
      refine ⟨u, c :: List.replicate (2 * n + 1) '\\', [], k', by simp, matches_cat_cons.2 ⟨[c], List.replicate (2 * n + 1) '\\', _, rfl,
        matches_cap.2 ⟨[], matches_alt.2 (Or.inl (matches_cls.2 ⟨c, rfl, ?_, rfl⟩)), rfl⟩, by rw [show (u.isEmpty && [c].isEmpty) = false by simp]; exact h⟩⟩
      have : c ≠ '\\' := fun e => ht u (by rw [e]; simp)
      simpa using this

theorem odd_snoc {l : Str} (h : OddBackslashes l) : ∃ u, l = u ++ ['\\'] := by
  obtain ⟨t, n, rfl, _⟩ := h
  exact ⟨t ++ List.replicate (2 * n) '\\', by rw [List.append_assoc, replicate_snoc, List.replicate_succ]⟩

/-- The number of backslashes at the end is determined. -/
theorem backslashes_unique {t t' : Str} {n m : Nat} (h : t ++ List.replicate n '\\' = t' ++ List.replicate m '\\')
    (ht : ∀ u, t ≠ u ++ ['\\']) (ht' : ∀ u, t' ≠ u ++ ['\\']) : t = t' ∧ n = m := by
  induction n generalizing m with
  | zero =>
    cases m with
    | zero => exact ⟨by simpa using h, rfl⟩
    | succ m =>
      rw [List.replicate_succ, ← replicate_snoc, ← List.append_assoc] at h
      simp only [List.replicate_zero, List.append_nil] at h
      exact absurd h (ht _)
  | succ n ih =>
    cases m with
    | zero =>
      rw [List.replicate_succ, ← replicate_snoc, ← List.append_assoc] at h
      simp only [List.replicate_zero, List.append_nil] at h
      exact absurd h.symm (ht' _)
    | succ m =>
      rw [List.replicate_succ, ← replicate_snoc, ← List.append_assoc, List.replicate_succ, ← replicate_snoc,
        ← List.append_assoc] at h
      obtain ⟨h1, h2⟩ := ih (List.append_cancel_right h)
      exact ⟨h1, by omega⟩

theorem odd_trim {u : Str} (h : OddBackslashes (u ++ ['\\'])) : ¬ OddBackslashes u := by
  rintro ⟨t, n, rfl, ht⟩
  obtain ⟨t', m, e, ht'⟩ := h
  rw [List.append_assoc, replicate_snoc, ← List.replicate_succ] at e
  have := (backslashes_unique e ht ht').2
  omega

theorem continueAtEnd_odd (n : Nat) (u : Str) (h : OddBackslashes (u ++ ['\\'])) :
    continueAtEnd (n + 1) (u ++ ['\\']) = u := by
  unfold continueAtEnd
  rw [if_pos ((continuation_iff _).2 h), trimSuffix_append]
  cases n with
  | zero => rfl
  | succ n =>
    unfold continueAtEnd
    rw [if_neg (fun h' => odd_trim h ((continuation_iff _).1 h'))]

theorem continueAtEnd_plain (n : Nat) (u : Str) (h : ¬ OddBackslashes u) : continueAtEnd n u = u := by
  cases n with
  | zero => rfl
  | succ n =>
    unfold continueAtEnd
    rw [if_neg (fun h' => h ((continuation_iff _).1 h'))]

theorem joined_from (ls : List Str) (l : Str) : Joined (l :: ls) (joinLinesFrom l ls) := by
  induction ls generalizing l with
  | nil =>
    unfold joinLinesFrom
    by_cases h : OddBackslashes l
    · obtain ⟨u, rfl⟩ := odd_snoc h
      rw [continueAtEnd_odd _ _ h]
      exact .last h
    · rw [continueAtEnd_plain _ _ h]
      exact .plain h .nil
  | cons next rest ih =>
    unfold joinLinesFrom
    by_cases h : OddBackslashes l
    · rw [if_pos ((continuation_iff _).2 h)]
      obtain ⟨u, rfl⟩ := odd_snoc h
      rw [trimSuffix_append]
      exact .join h (ih _)
    · rw [if_neg (fun h' => h ((continuation_iff _).1 h'))]
      exact .plain h (ih _)

theorem joined (ls : List Str) : Joined ls (joinLines ls) := by
  cases ls with
  | nil => exact .nil
  | cons l ls => exact joined_from ls l

theorem joined_unique {ls js ks : List Str} (h : Joined ls js) (h' : Joined ls ks) : js = ks := by
  induction h generalizing ks with
  | nil => cases h'; rfl
  | @plain l ls js hn _ ih =>
    generalize e : l :: ls = m at h'
    cases h' with
    | nil => cases e
    | plain _ h' => cases e; rw [ih h']
    | join ho _ => cases e; exact absurd ho hn
    | last ho => cases e; exact absurd ho hn
  | @join l next ls js ho _ ih =>
    generalize e : (l ++ ['\\']) :: next :: ls = m at h'
    cases h' with
    | nil => cases e
    | plain hn _ => cases e; exact absurd ho hn
    | join _ h' =>
      injection e with e1 e2
      injection e2 with e2 e3
      cases List.append_cancel_right e1
      subst e2 e3
      exact ih h'
    | last _ => injection e with e1 e2; cases e2
  | @last l ho =>
    generalize e : [l ++ ['\\']] = m at h'
    cases h' with
    | nil => cases e
    | plain hn _ => cases e; exact absurd ho hn
    | join _ h' => injection e with e1 e2; cases e2
    | last _ => injection e with e1 e2; rw [List.append_cancel_right e1]

theorem joined_no_newline {ls js : List Str} (h : Joined ls js) (hn : ∀ l ∈ ls, '\n' ∉ l) : ∀ j ∈ js, '\n' ∉ j := by
  induction h with
  | nil => simp
  | @plain l ls js _ _ ih =>
    intro j hj
    rcases List.mem_cons.1 hj with rfl | hj
    · exact hn _ (by simp)
    · exact ih (fun l hl => hn l (by simp [hl])) j hj
  | @join l next ls js _ _ ih =>
    apply ih
    intro x hx
    rcases List.mem_cons.1 hx with rfl | hx
    · have h1 := hn (l ++ ['\\']) (by simp)
      have h2 := hn next (by simp)
      simp at h1
      simp [h1, h2]
    · exact hn x (by simp [hx])
  | @last l _ =>
    intro j hj
    simp at hj
    have h1 := hn (l ++ ['\\']) (by simp)
    simp at h1
    rw [hj]; exact h1

theorem reSpace_space {c : Char} (h : isReSpace c = true) : isSpace c = true := by
  simp [isReSpace] at h
  rcases h with (((rfl | rfl) | rfl) | rfl) | rfl <;> decide

theorem comment_matches {bol : Bool} {k : Caps} {x rest : Str} {k' : Caps} :
    Matches reComment bol k x rest k' →
      ∃ ws c, x = ws ++ '#' :: c ∧ rest = [] ∧ ((bol = true ∧ ws = []) ∨ (ws ≠ [] ∧ ∀ d ∈ ws, isReSpace d = true)) := by
  intro h
  obtain ⟨y, x, _, rfl, hy, h⟩ := matches_cat_cons.1 h
  obtain ⟨z, x, _, rfl, hz, h⟩ := matches_cat_cons.1 h
  obtain ⟨u, x, _, rfl, hu, h⟩ := matches_cat_cons.1 h
  obtain ⟨rfl, _⟩ := matches_ch.1 hz
  obtain ⟨rfl, rfl, _⟩ := matches_eot.1 h
  obtain ⟨_, hy, _⟩ := matches_cap.1 hy
  refine ⟨y, u, by simp, rfl, ?_⟩
  rcases matches_alt.1 hy with hy | hy
  · obtain ⟨hb, rfl, _⟩ := matches_bot.1 hy
    exact Or.inl ⟨hb, rfl⟩
  · obtain ⟨h1, h2, _⟩ := matches_plus_cls.1 hy
    exact Or.inr ⟨h1, h2⟩

theorem comment_complete {bol : Bool} {ws c : Str} (hc : '\n' ∉ c)
    (h : (bol = true ∧ ws = []) ∨ (ws ≠ [] ∧ ∀ d ∈ ws, isReSpace d = true)) :
    ∃ k', Matches reComment bol [] (ws ++ '#' :: c) [] k' := by
  refine ⟨[(1, ws)], matches_cat_cons.2 ⟨ws, '#' :: c, [(1, ws)], rfl, ?_, ?_⟩⟩
  · refine matches_cap.2 ⟨[], matches_alt.2 ?_, rfl⟩
    rcases h with ⟨h1, rfl⟩ | ⟨h1, h2⟩
    · exact Or.inl (matches_bot.2 ⟨h1, rfl, rfl⟩)
    · exact Or.inr (matches_plus_cls.2 ⟨h1, h2, rfl⟩)
  · refine matches_cat_cons.2 ⟨['#'], c, _, rfl, matches_ch.2 ⟨rfl, rfl⟩, ?_⟩
    refine matches_cat_cons.2 ⟨c, [], _, by simp, ?_, matches_eot.2 ⟨rfl, rfl, rfl⟩⟩
    refine matches_star_cls.2 ⟨fun d hd => ?_, rfl⟩
    have : d ≠ '\n' := fun e => hc (e ▸ hd)
    simpa using this

theorem trimmed_append_blank {p ws t : Str} (h : Trimmed p t) (hw : Blank ws) : Trimmed (p ++ ws) t := by
  obtain ⟨a, b, rfl, h1, h2, h3, h4⟩ := h
  refine ⟨a, b ++ ws, by simp, h1, ?_, h3, h4⟩
  intro c hc
  rcases List.mem_append.1 hc with hc | hc
  · exact h2 c hc
  · exact hw c hc

theorem uncommented (l : Str) (hn : '\n' ∉ l) : Uncommented l (removeComments l) := by
  unfold removeComments Re.replaceAll Re.replaceFrom
  cases hf : findFrom reComment true l with
  | none =>
    refine Or.inl ⟨?_, trimSpace_trimmed l⟩
    rintro p ⟨post, rfl, hp⟩
    have hnone := findFrom_none _ _ _ hf
    have hpost : '\n' ∉ post := fun h => hn (by simp [h])
    rcases hp with rfl | ⟨u, c, rfl, hc⟩
    · obtain ⟨k, hk⟩ := comment_complete (bol := true) (ws := []) hpost (Or.inl ⟨rfl, rfl⟩)
      exact hnone [] ('#' :: post) [] k (by simp) hk
    · obtain ⟨k, hk⟩ := comment_complete (bol := true && u.isEmpty) (ws := [c]) hpost
        (Or.inr ⟨by simp, by simpa using hc⟩)
      exact hnone u _ [] k (by simp) hk
  | some f =>
    obtain ⟨e, hm⟩ := findFrom_sound _ _ _ _ hf
    have hleft := findFrom_leftmost _ _ _ _ hf
    obtain ⟨ws, c, ex, er, hws⟩ := comment_matches hm
    have hne : f.matched.isEmpty = false := by rw [ex]; simp
    dsimp only
    rw [if_neg (by simp [hne]), er, List.append_nil]
    have hnil : replaceFrom reComment [] l.length false [] = [] := by
      cases l.length with
      | zero => rfl
      | succ n =>
        unfold replaceFrom
        have : findFrom reComment false [] = none := by decide
        rw [this]
    rw [hnil, List.append_nil]
    rw [er, ex, List.append_nil] at e
    have hblank : Blank ws := by
      rcases hws with ⟨_, rfl⟩ | ⟨_, h2⟩
      · intro c hc; cases hc
      · exact fun c hc => reSpace_space (h2 c hc)
    refine Or.inr ⟨f.pre ++ ws, ⟨c, by rw [e]; simp, ?_⟩, ?_, trimmed_append_blank (trimSpace_trimmed _) hblank⟩
    · rcases hws with ⟨hb, rfl⟩ | ⟨h1, h2⟩
      · left
        have : f.pre = [] := by simpa using hb
        simp [this]
      · right
        rcases List.eq_nil_or_concat ws with rfl | ⟨u, d, rfl⟩
        · exact absurd rfl h1
        · exact ⟨f.pre ++ u, d, by simp, h2 d (by simp)⟩
    · rintro q ⟨post, eq, hq⟩
      apply Decidable.byContradiction
      intro hlt
      have hlt : q.length < f.pre.length + ws.length := by simpa using hlt
      have hpost : '\n' ∉ post := fun h => hn (by rw [eq]; simp [h])
      -- the comment found starts no later than the white space before any other comment
      have hu : f.pre.length ≤ q.length := by
        rcases hq with rfl | ⟨u, d, rfl, hd⟩
        · apply Decidable.byContradiction
          intro hl
          obtain ⟨k, hk⟩ := comment_complete (bol := true && ([] : Str).isEmpty) (ws := []) hpost (Or.inl ⟨rfl, rfl⟩)
          exact hleft [] _ [] k (by rw [eq]; simp) (Nat.lt_of_not_le hl) hk
        · apply Decidable.byContradiction
          intro hl
          obtain ⟨k, hk⟩ := comment_complete (bol := true && u.isEmpty) (ws := [d]) hpost
            (Or.inr ⟨by simp, by simpa using hd⟩)
          refine hleft u _ [] k (by rw [eq]; simp) ?_ hk
          simp at hl; omega
      have hmem : l[q.length]? = some '#' := by rw [eq]; simp
      have hin : ∃ d ∈ ws, l[q.length]? = some d := by
        refine ⟨ws[q.length - f.pre.length]'(by omega), List.getElem_mem _, ?_⟩
        rw [e, List.getElem?_append_right hu, List.getElem?_append_left (by omega),
          List.getElem?_eq_getElem]
      obtain ⟨d, hd, hd'⟩ := hin
      rw [hmem] at hd'
      cases hd'
      rcases hws with ⟨_, rfl⟩ | ⟨_, h2⟩
      · cases hd
      · exact absurd (h2 _ hd) (by decide)

theorem uncommented_unique {l t t' : Str} (h : Uncommented l t) (h' : Uncommented l t') : t = t' := by
  have tu : ∀ {p t t' : Str}, Trimmed p t → Trimmed p t' → t = t' :=
    fun h h' => (trimSpace_of_trimmed h).symm.trans (trimSpace_of_trimmed h')
  rcases h with ⟨hn, ht⟩ | ⟨p, hp, hm, ht⟩
  · rcases h' with ⟨_, ht'⟩ | ⟨p, hp, _⟩
    · exact tu ht ht'
    · exact absurd hp (hn p)
  · rcases h' with ⟨hn, _⟩ | ⟨q, hq, hm', ht'⟩
    · exact absurd hp (hn p)
    · have hl : p.length = q.length := Nat.le_antisymm (hm q hq) (hm' p hp)
      obtain ⟨a, e, _⟩ := hp
      obtain ⟨b, e', _⟩ := hq
      rw [e] at e'
      have : p = q := (List.append_inj e' hl).1
      subst this
      exact tu ht ht'

theorem toLower_bracket {c : Char} (h : c.toLower = '[') : c = '[' := by
  unfold Char.toLower at h
  split at h
  · rename_i hu
    exfalso
    have h1 := congrArg Char.val h
    simp at h1
    have h2 := hu.1; have h3 := hu.2
    simp [UInt32.le_iff_toNat_le] at h2 h3
    have := congrArg UInt32.toNat h1
    simp at this
    omega
  · exact h

theorem pep503_append (a b : Str) (c : Char) (hc : isNameSep c = false) :
    pep503 (a ++ c :: b) = pep503 a ++ c.toLower :: pep503 b := by
  induction a with
  | nil => exact pep503_cons_nonsep _ _ hc
  | cons d a ih =>
    cases a with
    | nil =>
      by_cases hd : isNameSep d = true
      · show pep503 (d :: c :: b) = pep503 [d] ++ _
        have := pep503_cons_nonsep c b hc
        simp [pep503, hd, hc, this]
      · have hd : isNameSep d = false := by simpa using hd
        show pep503 (d :: c :: b) = pep503 [d] ++ _
        rw [pep503_cons_nonsep _ _ hd, pep503_cons_nonsep _ _ hc]
        simp [pep503, hd]
    | cons e a =>
      simp only [List.cons_append] at ih ⊢
      rw [pep503, pep503]
      by_cases hd : isNameSep d = true
      · by_cases he : isNameSep e = true
        · rw [if_pos hd, if_pos he, if_pos hd, if_pos he, ih]
        · rw [if_pos hd, if_neg he, if_pos hd, if_neg he, ih]; rfl
      · rw [if_neg hd, if_neg hd, ih]; rfl

theorem bracket_pep503 (a : Str) (h : '[' ∉ a) : '[' ∉ pep503 a := by
  induction a with
  | nil => exact h
  | cons d a ih =>
    have hd : d ≠ '[' := fun e => h (by simp [e])
    have ha : '[' ∉ a := fun e => h (by simp [e])
    have hl : '[' ≠ d.toLower := fun e => hd (toLower_bracket e.symm)
    cases a with
    | nil =>
      unfold pep503
      split <;> simp [hl]
    | cons e a =>
      unfold pep503
      split
      · split
        · exact ih ha
        · simp [ih ha]
      · simp [ih ha, hl]

theorem normalized_eq {n base : Str} (h : Before '[' n base) : normalizedRequirementName n = pep503 base := by
  unfold normalizedRequirementName
  rw [normalizedName_pypi]
  apply cut_char_fst_iff.2
  refine ⟨bracket_pep503 _ h.1, ?_⟩
  rcases h.2 with rfl | ⟨r, rfl⟩
  · exact Or.inl rfl
  · right
    exact ⟨pep503 r, by rw [pep503_append _ _ _ (by decide)]; rfl⟩

theorem before_exists (c : Char) (s : Str) : Before c s (cut s [c]).1 := cut_char_fst_iff.1 rfl

theorem contains_occurs (s w : Str) : contains s w = true ↔ Occurs w s := contains_iff s w

theorem constraint_iff (line op : Str) (h : op ≠ []) : reqConstraint line = op ↔ ReqOp line op := by
  unfold reqConstraint
  dsimp only
  constructor
  · intro e
    by_cases h1 : contains line g!"!=" = true
    · rw [if_pos h1] at e; subst e; exact .ne ((contains_occurs _ _).1 h1)
    · rw [if_neg h1] at e
      rw [contains_occurs] at h1
      by_cases h2 : contains line g!"~=" = true
      · rw [if_pos h2] at e; subst e; exact .compatible h1 ((contains_occurs _ _).1 h2)
      · rw [if_neg h2] at e
        rw [contains_occurs] at h2
        by_cases h3 : contains line g!">=" = true
        · rw [if_pos h3] at e; subst e; exact .ge h1 h2 ((contains_occurs _ _).1 h3)
        · rw [if_neg h3] at e
          rw [contains_occurs] at h3
          by_cases h4 : contains line g!"==" = true
          · rw [if_pos h4] at e; subst e; exact .eq h1 h2 h3 ((contains_occurs _ _).1 h4)
          · rw [if_neg h4] at e; exact absurd e.symm h
  · intro hop
    cases hop with
    | ne h1 => rw [if_pos ((contains_occurs _ _).2 h1)]
    | compatible h1 h2 => rw [if_neg (mt (contains_occurs _ _).1 h1), if_pos ((contains_occurs _ _).2 h2)]
    | ge h1 h2 h3 =>
      rw [if_neg (mt (contains_occurs _ _).1 h1), if_neg (mt (contains_occurs _ _).1 h2),
        if_pos ((contains_occurs _ _).2 h3)]
    | eq h1 h2 h3 h4 =>
      rw [if_neg (mt (contains_occurs _ _).1 h1), if_neg (mt (contains_occurs _ _).1 h2),
        if_neg (mt (contains_occurs _ _).1 h3), if_pos ((contains_occurs _ _).2 h4)]

theorem op_occurs {line op : Str} (h : ReqOp line op) : op ≠ [] ∧ Occurs op line := by
  cases h <;> exact ⟨by simp, by assumption⟩

theorem cut_first {w s : Str} (h : Occurs w s) : FirstAt w s (cut s w).1 (cut s w).2 := by
  unfold cut
  cases hc : cut? w s with
  | none =>
    obtain ⟨a, b, e⟩ := h
    exact absurd e (cut?_none_iff.1 hc a b)
  | some r => exact ⟨cut?_some hc, cut?_first hc⟩

theorem firstAt_unique {w s a b a' b' : Str} (h : FirstAt w s a b) (h' : FirstAt w s a' b') : a = a' ∧ b = b' := by
  have hl : a.length = a'.length := Nat.le_antisymm (h.2 _ _ h'.1) (h'.2 _ _ h.1)
  have e := h.1.symm.trans h'.1
  rw [List.append_assoc, List.append_assoc] at e
  obtain ⟨e1, e2⟩ := List.append_inj e hl
  exact ⟨e1, List.append_cancel_left e2⟩

theorem parse_entry (line : Str) : ReqEntry line (parseRequirement line) := by
  unfold parseRequirement
  dsimp only
  by_cases h : reqConstraint line = []
  · rw [if_neg (not_not_intro h), if_neg (not_not_intro h), normalized_eq (before_exists '[' line)]
    refine .bare ?_ (before_exists _ _)
    intro op hop
    have h1 := (op_occurs hop).1
    exact h1 ((constraint_iff line op h1).2 hop ▸ h)
  · rw [if_pos h, if_pos h, normalized_eq (before_exists '[' _)]
    have hop := (constraint_iff line _ h).1 rfl
    have hc := cut_first (op_occurs hop).2
    by_cases hne : reqConstraint line = g!"!="
    · rw [if_neg (not_not_intro hne)]
      rw [hne] at hop hc ⊢
      exact .excluded hop hc (trimSpace_trimmed _) (before_exists _ _)
    · rw [if_pos hne]
      exact .pinned hop hne hc (trimSpace_trimmed _) (before_exists _ _) (trimSpace_trimmed _) (before_exists _ _)

theorem before_unique {c : Char} {s p q : Str} (h : Before c s p) (h' : Before c s q) : p = q :=
  (cut_char_fst_iff.2 h).symm.trans (cut_char_fst_iff.2 h')

theorem trimmed_unique {s p q : Str} (h : Trimmed s p) (h' : Trimmed s q) : p = q :=
  (trimSpace_of_trimmed h).symm.trans (trimSpace_of_trimmed h')

theorem op_unique {line op op' : Str} (h : ReqOp line op) (h' : ReqOp line op') : op = op' :=
  ((constraint_iff line op (op_occurs h).1).2 h).symm.trans ((constraint_iff line op' (op_occurs h').1).2 h')

theorem entry_unique {line : Str} {d d' : PackageDetails} (h : ReqEntry line d) (h' : ReqEntry line d') : d = d' := by
  cases h with
  | bare hn hb =>
    cases h' with
    | bare _ hb' => rw [before_unique hb hb']
    | excluded ho => exact absurd ho (hn _)
    | pinned ho => exact absurd ho (hn _)
  | excluded ho hf ht hb =>
    cases h' with
    | bare hn => exact absurd ho (hn _)
    | excluded _ hf' ht' hb' =>
      obtain ⟨rfl, rfl⟩ := firstAt_unique hf hf'
      cases trimmed_unique ht ht'
      rw [before_unique hb hb']
    | pinned ho' hne => exact absurd (op_unique ho' ho) hne
  | pinned ho hne hf ht hb hw hv =>
    cases h' with
    | bare hn => exact absurd ho (hn _)
    | excluded ho' => exact absurd (op_unique ho ho') hne
    | pinned ho' _ hf' ht' hb' hw' hv' =>
      cases op_unique ho ho'
      obtain ⟨rfl, rfl⟩ := firstAt_unique hf hf'
      cases trimmed_unique ht ht'
      cases trimmed_unique hw hw'
      rw [before_unique hb hb', before_unique hv hv']

end Pip
end Osv
