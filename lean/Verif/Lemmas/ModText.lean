import Verif.Lemmas.ModLex
/-! # Statements of go.mod files by lines -/
namespace Osv.ModFile
open Str Spec Spec.ModText

/-- The token of a word. -/
def tokOf : Str → Tok
  | [c] => if c ∈ g!"()[]{}," then .punct c else .word [c]
  | w => .word w

theorem tokOf_punct {c : Char} (h : c ∈ g!"()[]{},") : tokOf [c] = .punct c := if_pos h

theorem tokOf_word {c : Char} {w : Str} (h : c ∉ g!"()[]{},") : tokOf (c :: w) = .word (c :: w) := by
  cases w with
  | nil => exact if_neg h
  | cons _ _ => rfl

theorem tokOf_text (w : Str) : (tokOf w).text = w := by
  unfold tokOf
  split
  · split <;> rfl
  · rfl

theorem tokOf_isEOL (w : Str) : (tokOf w).isEOL = false := by
  unfold tokOf
  split
  · split <;> rfl
  · rfl

theorem tokOf_inj {w v : Str} (h : tokOf w = tokOf v) : w = v := by rw [← tokOf_text w, h, tokOf_text]

theorem tokOf_eq_punct {w : Str} {c : Char} (hc : c ∈ g!"()[]{},") : tokOf w = .punct c ↔ w = [c] := by
  rw [← tokOf_punct hc]
  exact ⟨tokOf_inj, fun h => h ▸ rfl⟩

/-- A token that ends a line; `used`: there are words before it. -/
inductive EolOK : Bool → Tok → Prop
  | newline {used : Bool} : EolOK used .newline
  | eolComment : EolOK true .eolComment
  | comment {t : Str} : EolOK false (.comment t)

/-- The tokens of lines with their words. -/
inductive TokLines : List (List Str) → List Tok → Prop
  | nil : TokLines [] []
  | last {ws : List Str} : TokLines [ws] (ws.map tokOf)
  | line {ws : List Str} {eol : Tok} {wss : List (List Str)} {ts : List Tok} : EolOK (!ws.isEmpty) eol → TokLines wss ts →
      TokLines (ws :: wss) (ws.map tokOf ++ eol :: ts)

/-! ## Statements -/

/-- Where the parser is after a line of a statement. -/
def classify (w : Str) (ws : List Str) : Place :=
  if ws.getLast? = some g!"(" then .open (w :: ws.dropLast)
  else if ws.getLast? = some g!")" ∧ ws.dropLast.getLast? = some g!"(" then .openClose (w :: ws.dropLast.dropLast)
  else .stmt (w :: ws)

theorem getLast_eq {ws : List Str} {w : Str} (h : ws.getLast? = some w) : ws = ws.dropLast ++ [w] := by
  have hne : ws ≠ [] := by rintro rfl; simp at h
  rw [List.getLast?_eq_some_getLast hne] at h
  injection h with h
  rw [← h]
  exact (List.dropLast_concat_getLast hne).symm

/-- The parser on a word within a statement. -/
def stepWord (p : Place) (w : Str) : Place :=
  match p with
  | .open ts => if w = g!")" then .openClose ts else inStmt (ts ++ [g!"("]) (tokOf w)
  | .openClose ts => inStmt (ts ++ [g!"(", g!")"]) (tokOf w)
  | .stmt ts => inStmt ts (tokOf w)
  | p => p

theorem inStmt_tokOf (ts : List Str) (w : Str) : inStmt ts (tokOf w) = if w = g!"(" then .open ts else .stmt (ts ++ [w]) := by
  unfold inStmt
  rw [tokOf_text]
  by_cases h : w = g!"("
  · rw [if_pos h, if_pos ((tokOf_eq_punct (by decide)).2 h)]
  · rw [if_neg h, if_neg (fun e => h ((tokOf_eq_punct (by decide)).1 e))]

theorem stepWord_classify (w0 : Str) (ws : List Str) (w : Str) : stepWord (classify w0 ws) w = classify w0 (ws ++ [w]) := by
  have hr : classify w0 (ws ++ [w]) = if w = g!"(" then .open (w0 :: ws)
      else if w = g!")" ∧ ws.getLast? = some g!"(" then .openClose (w0 :: ws.dropLast) else .stmt (w0 :: (ws ++ [w])) := by
    unfold classify
    simp
  rw [hr]
  conv => lhs; unfold classify
  by_cases h1 : ws.getLast? = some g!"("
  · rw [if_pos h1]
    dsimp only [stepWord]
    by_cases h2 : w = g!")"
    · rw [if_pos h2, if_neg (by rw [h2]; decide), if_pos ⟨h2, h1⟩]
    · rw [if_neg h2, inStmt_tokOf]
      have e := getLast_eq h1
      by_cases h3 : w = g!"("
      · rw [if_pos h3, if_pos h3, List.cons_append, ← e]
      · rw [if_neg h3, if_neg h3, if_neg (fun h => h2 h.1), List.cons_append, ← e]; rfl
  · rw [if_neg h1]
    by_cases h2 : ws.getLast? = some g!")" ∧ ws.dropLast.getLast? = some g!"("
    · rw [if_pos h2]
      dsimp only [stepWord]
      rw [inStmt_tokOf]
      have e1 := getLast_eq h2.1
      have e2 := getLast_eq h2.2
      have e : ws.dropLast.dropLast ++ [g!"(", g!")"] = ws := by
        conv => rhs; rw [e1, e2]
        simp
      by_cases h3 : w = g!"("
      · rw [if_pos h3, if_pos h3, List.cons_append, e]
      · rw [if_neg h3, if_neg h3, if_neg (fun h => h1 h.2), List.cons_append, e]; rfl
    · rw [if_neg h2]
      dsimp only [stepWord]
      rw [inStmt_tokOf]
      by_cases h3 : w = g!"("
      · rw [if_pos h3, if_pos h3]
      · rw [if_neg h3, if_neg h3, if_neg (fun h => h1 h.2)]; rfl

/-- Within a statement. -/
def Place.within : Place → Prop
  | .stmt _ => True
  | .open _ => True
  | .openClose _ => True
  | _ => False

theorem classify_within (w : Str) (ws : List Str) : (classify w ws).within := by
  unfold classify
  split
  · trivial
  split <;> trivial

theorem stmts_step {p : Place} (hp : p.within) (w : Str) (ts : List Tok) : stmts p (tokOf w :: ts) = stmts (stepWord p w) ts := by
  cases p with
  | stmt l => rw [stmts, tokOf_isEOL]; rfl
  | «open» l =>
    rw [stmts, tokOf_isEOL]
    dsimp only [stepWord]
    rw [if_neg (by simp)]
    by_cases h : w = g!")"
    · rw [if_pos h, if_pos ((tokOf_eq_punct (by decide)).2 h)]
    · rw [if_neg h, if_neg (fun e => h ((tokOf_eq_punct (by decide)).1 e))]
  | openClose l => rw [stmts, tokOf_isEOL]; rfl
  | top => exact hp.elim
  | block _ _ => exact hp.elim
  | blockLine _ _ _ => exact hp.elim
  | blockEnd _ _ => exact hp.elim

theorem stmts_words (w : Str) (done ws : List Str) (ts : List Tok) :
    stmts (classify w done) (ws.map tokOf ++ ts) = stmts (classify w (done ++ ws)) ts := by
  induction ws generalizing done with
  | nil => simp
  | cons v ws ih =>
    rw [List.map_cons, List.cons_append, stmts_step (classify_within w done), stepWord_classify, ih]
    simp

theorem stmts_first (w : Str) (ws : List Str) (ts : List Tok) :
    stmts .top ((w :: ws).map tokOf ++ ts) = stmts (classify w ws) ts := by
  have h : stmts .top ((w :: ws).map tokOf ++ ts) = stmts (classify w []) (ws.map tokOf ++ ts) := by
    rw [List.map_cons, List.cons_append]
    have h0 : classify w [] = .stmt [w] := rfl
    rw [h0]
    have ht := tokOf_text w
    have he := tokOf_isEOL w
    conv => lhs; unfold stmts
    try dsimp only
    cases h1 : tokOf w with
    | newline => rw [h1] at he; simp [Tok.isEOL] at he
    | eolComment => rw [h1] at he; simp [Tok.isEOL] at he
    | comment t => unfold tokOf at h1; split at h1; (split at h1 <;> simp at h1); simp at h1
    | punct c => rw [h1] at ht; dsimp only; rw [ht]
    | word v => rw [h1] at ht; dsimp only; rw [ht]
  rw [h, stmts_words]
  rfl

/-- The parser of the lines of a block. -/
def blockL (ts : List Str) : List (List Str) → List (List Str) → (List (List Str) → Option (List Stmt)) → Option (List Stmt)
  | _, [], _ => none
  | acc, [] :: wss, k => blockL ts acc wss k
  | acc, (w :: ws) :: wss, k =>
    if w = g!")" then if ws = [] then (k wss).map (Stmt.block ts acc :: ·) else none
    else blockL ts (acc ++ [w :: ws]) wss k

theorem blockLine_words (ts : List Str) (ls : List (List Str)) (l ws : List Str) (rest : List Tok) :
    stmts (.blockLine ts ls l) (ws.map tokOf ++ rest) = stmts (.blockLine ts ls (l ++ ws)) rest := by
  induction ws generalizing l with
  | nil => simp
  | cons w ws ih =>
    rw [List.map_cons, List.cons_append, stmts, tokOf_isEOL, if_neg (by simp), tokOf_text, ih]
    simp

theorem block_first (ts : List Str) (ls : List (List Str)) (w : Str) (ws : List Str) (rest : List Tok) :
    stmts (.block ts ls) ((w :: ws).map tokOf ++ rest) =
      if w = g!")" then stmts (.blockEnd ts ls) (ws.map tokOf ++ rest) else stmts (.blockLine ts ls (w :: ws)) rest := by
  rw [List.map_cons, List.cons_append]
  have ht := tokOf_text w
  have he := tokOf_isEOL w
  have hp := @tokOf_eq_punct w ')' (by decide)
  conv => lhs; unfold stmts
  try dsimp only
  cases h1 : tokOf w with
  | newline => rw [h1] at he; simp [Tok.isEOL] at he
  | eolComment => rw [h1] at he; simp [Tok.isEOL] at he
  | comment t => unfold tokOf at h1; split at h1; (split at h1 <;> simp at h1); simp at h1
  | punct c =>
    rw [h1] at ht hp
    dsimp only [Tok.text] at ht ⊢
    by_cases h : w = g!")"
    · rw [if_pos h, if_pos (by injection hp.2 h)]
    · rw [if_neg h, if_neg (fun e => h (hp.1 (by rw [e]))), ht, blockLine_words]; rfl
  | word v =>
    rw [h1] at ht hp
    dsimp only [Tok.text] at ht ⊢
    rw [if_neg (fun e => by have := hp.2 e; simp at this), ht, blockLine_words]; rfl

/-- The parser on the words of lines. `fuel`: at least the number of lines. -/
def stmtsL : Nat → List (List Str) → Option (List Stmt)
  | _, [] => some []
  | 0, _ :: _ => none
  | n + 1, [] :: wss => stmtsL n wss
  | n + 1, (w :: ws) :: wss => match classify w ws with
    | .open ts => blockL ts [] wss (stmtsL n)
    | .openClose ts => (stmtsL n wss).map (Stmt.block ts [] :: ·)
    | .stmt ts => (stmtsL n wss).map (Stmt.line ts :: ·)
    | _ => none

theorem eol_true {t : Tok} (h : EolOK true t) : t.isEOL = true := by cases h <;> rfl

theorem stmts_lines {wss : List (List Str)} {ts : List Tok} (h : TokLines wss ts) : ∀ n, wss.length ≤ n →
    stmts .top ts = stmtsL n wss ∧ ∀ k, wss.length ≤ k → ∀ hd acc, stmts (.block hd acc) ts = blockL hd acc wss (stmtsL k) := by
  induction h with
  | nil => intro n _; refine ⟨?_, ?_⟩ <;> first | rfl | (intro k _ hd acc; rfl) | skip
           unfold stmtsL; rfl
  | @last ws =>
    intro n hn
    cases n with
    | zero => simp at hn
    | succ n =>
      have nil_of : ∀ k, stmtsL k [] = some [] := fun k => by unfold stmtsL; rfl
      constructor
      · cases ws with
        | nil => rw [stmtsL, nil_of]; rfl
        | cons w ws =>
          have := stmts_first w ws []
          rw [List.append_nil] at this
          rw [this, stmtsL]
          have hw := classify_within w ws
          cases hc : classify w ws with
          | stmt l => dsimp only; rw [nil_of]; rfl
          | «open» l => rfl
          | openClose l => dsimp only; rw [nil_of]; rfl
          | top => rw [hc] at hw; exact hw.elim
          | block _ _ => rw [hc] at hw; exact hw.elim
          | blockLine _ _ _ => rw [hc] at hw; exact hw.elim
          | blockEnd _ _ => rw [hc] at hw; exact hw.elim
      · intro k _ hd acc
        cases ws with
        | nil => rfl
        | cons w ws =>
          have := block_first hd acc w ws []
          rw [List.append_nil] at this
          rw [this, blockL]
          by_cases h : w = g!")"
          · rw [if_pos h, if_pos h, List.append_nil]
            cases ws with
            | nil => rw [if_pos rfl, nil_of]; rfl
            | cons v ws => rw [if_neg (by simp), List.map_cons, stmts, tokOf_isEOL]; rfl
          · rw [if_neg h, if_neg h]; rfl
  | @line ws eol wss ts he _ ih =>
    intro n hn
    cases n with
    | zero => simp at hn
    | succ n =>
      have hn' : wss.length ≤ n := by simp at hn; omega
      constructor
      · cases ws with
        | nil =>
          rw [stmtsL, ← (ih n hn').1]
          cases he <;> rfl
        | cons w ws =>
          rw [stmts_first w ws, stmtsL]
          have heol := eol_true he
          have hw := classify_within w ws
          cases hc : classify w ws with
          | stmt l => dsimp only; rw [stmts, heol, if_pos rfl, (ih n hn').1]
          | «open» l => dsimp only; rw [stmts, heol, if_pos rfl, (ih n hn').2 n hn']
          | openClose l => dsimp only; rw [stmts, heol, if_pos rfl, (ih n hn').1]
          | top => rw [hc] at hw; exact hw.elim
          | block _ _ => rw [hc] at hw; exact hw.elim
          | blockLine _ _ _ => rw [hc] at hw; exact hw.elim
          | blockEnd _ _ => rw [hc] at hw; exact hw.elim
      · intro k hk hd acc
        have hk' : wss.length ≤ k := by simp at hk; omega
        cases ws with
        | nil =>
          rw [blockL, ← (ih n hn').2 k hk']
          cases he <;> rfl
        | cons w ws =>
          rw [block_first, blockL]
          have heol := eol_true he
          by_cases h : w = g!")"
          · rw [if_pos h, if_pos h]
            cases ws with
            | nil => rw [if_pos rfl, List.map_nil, List.nil_append, stmts, heol, if_pos rfl, (ih k hk').1]
            | cons v ws => rw [if_neg (by simp), List.map_cons, List.cons_append, stmts, tokOf_isEOL]; rfl
          · rw [if_neg h, if_neg h, stmts, heol, if_pos rfl, (ih n hn').2 k hk']

/-! ## Directives -/

/-- Directives one after another. -/
def addAll : File → List (Str × List Str) → Option File
  | f, [] => some f
  | f, d :: ds => (add f d.1 d.2).bind fun f => addAll f ds

theorem addAll_append (f : File) (a b : List (Str × List Str)) : addAll f (a ++ b) = (addAll f a).bind fun f => addAll f b := by
  induction a generalizing f with
  | nil => rfl
  | cons d a ih =>
    rw [List.cons_append, addAll, addAll, Option.bind_assoc]
    congr 1
    funext f
    exact ih f

theorem addLines_eq (verb : Str) (f : File) (ls : List (List Str)) : addLines verb f ls = addAll f (ls.map fun l => (verb, l)) := by
  induction ls generalizing f with
  | nil => rfl
  | cons l ls ih =>
    rw [addLines, List.map_cons, addAll]
    congr 1
    funext f
    exact ih f

theorem blockVerbs_iff {verb : Str} : blockVerbs.contains verb = true ↔ IsBlock verb := by
  rw [List.contains_iff_mem]; exact Iff.rfl

theorem classify_stmt {w : Str} {ws : List Str} (h1 : ∀ a, ws ≠ a ++ [g!"("]) (h2 : ∀ a, ws ≠ a ++ [g!"(", g!")"]) :
    classify w ws = .stmt (w :: ws) := by
  unfold classify
  rw [if_neg, if_neg]
  · rintro ⟨a, b⟩
    refine h2 ws.dropLast.dropLast ?_
    conv => lhs; rw [getLast_eq a, getLast_eq b]
    simp
  · intro a
    exact h1 _ (getLast_eq a)

theorem blockL_of {hd : List Str} {body es : List (List Str)} (h : BlockLines body es) (acc wss : List (List Str))
    (k : List (List Str) → Option (List Stmt)) :
    blockL hd acc (body ++ [g!")"] :: wss) k = (k wss).map (Stmt.block hd (acc ++ es) :: ·) := by
  induction h generalizing acc with
  | nil => rw [List.nil_append, blockL, if_pos rfl, if_pos rfl, List.append_nil]
  | blank _ ih => rw [List.cons_append, blockL, ih]
  | entry hw _ ih => rw [List.cons_append, blockL, if_neg hw, ih]; simp

theorem of_blockL {hd : List Str} {k : List (List Str) → Option (List Stmt)} {wss : List (List Str)} {acc : List (List Str)} {sts : List Stmt}
    (h : blockL hd acc wss k = some sts) : ∃ body es ls sts', wss = body ++ [g!")"] :: ls ∧ BlockLines body es ∧ k ls = some sts' ∧
      sts = .block hd (acc ++ es) :: sts' := by
  induction wss generalizing acc with
  | nil => simp [blockL] at h
  | cons ws wss ih =>
    cases ws with
    | nil =>
      rw [blockL] at h
      obtain ⟨body, es, ls, sts', rfl, hb, hk, e⟩ := ih h
      exact ⟨[] :: body, es, ls, sts', rfl, .blank hb, hk, e⟩
    | cons w ws =>
      rw [blockL] at h
      by_cases hw : w = g!")"
      · rw [if_pos hw] at h
        by_cases hs : ws = []
        · rw [if_pos hs] at h
          cases hk : k wss with
          | none => rw [hk] at h; simp at h
          | some sts' =>
            rw [hk] at h
            injection h with h
            exact ⟨[], [], wss, sts', by rw [hw, hs]; rfl, .nil, hk, by rw [← h, List.append_nil]⟩
        · rw [if_neg hs] at h; simp at h
      · rw [if_neg hw] at h
        obtain ⟨body, es, ls, sts', rfl, hb, hk, e⟩ := ih h
        exact ⟨(w :: ws) :: body, (w :: ws) :: es, ls, sts', rfl, .entry hw hb, hk, by rw [e]; simp⟩

theorem directives_stmts {wss : List (List Str)} {ds : List (Str × List Str)} (h : Directives wss ds) : ∀ n, wss.length ≤ n →
    ∃ sts, stmtsL n wss = some sts ∧ ∀ f, addStmts f sts = addAll f ds := by
  induction h with
  | nil => intro n _; exact ⟨[], by unfold stmtsL; rfl, fun f => rfl⟩
  | blank _ ih =>
    intro n hn
    cases n with
    | zero => simp at hn
    | succ n => rw [stmtsL]; exact ih n (by simp at hn; omega)
  | @line verb args ls ds h1 h2 _ ih =>
    intro n hn
    cases n with
    | zero => simp at hn
    | succ n =>
      obtain ⟨sts, e, hs⟩ := ih n (by simp at hn; omega)
      refine ⟨.line (verb :: args) :: sts, ?_, ?_⟩
      · rw [stmtsL, classify_stmt h1 h2]; dsimp only; rw [e]; rfl
      · intro f
        rw [addStmts, addAll]
        dsimp only
        congr 1
        funext f
        exact hs f
  | @empty verb ls ds hv _ ih =>
    intro n hn
    cases n with
    | zero => simp at hn
    | succ n =>
      obtain ⟨sts, e, hs⟩ := ih n (by simp at hn; omega)
      refine ⟨.block [verb] [] :: sts, ?_, ?_⟩
      · have : classify verb [g!"(", g!")"] = .openClose [verb] := rfl
        rw [stmtsL, this]; dsimp only; rw [e]; rfl
      · intro f
        rw [addStmts]
        try dsimp only
        rw [if_pos (blockVerbs_iff.2 hv), addLines]
        exact hs f
  | @block verb body es ls ds hv hb _ ih =>
    intro n hn
    cases n with
    | zero => simp at hn
    | succ n =>
      obtain ⟨sts, e, hs⟩ := ih n (by simp at hn; omega)
      refine ⟨.block [verb] es :: sts, ?_, ?_⟩
      · have : classify verb [g!"("] = .open [verb] := rfl
        rw [stmtsL, this]; dsimp only; rw [blockL_of hb, e]; rfl
      · intro f
        rw [addStmts]
        try dsimp only
        rw [if_pos (blockVerbs_iff.2 hv), addLines_eq, addAll_append]
        congr 1
        funext f
        exact hs f

theorem stmts_directives : ∀ (n : Nat) (wss : List (List Str)) (sts : List Stmt) (f f' : File), stmtsL n wss = some sts →
    addStmts f sts = some f' → ∃ ds, Directives wss ds ∧ addAll f ds = some f' := by
  intro n
  induction n with
  | zero =>
    intro wss sts f f' h ha
    cases wss with
    | nil =>
      unfold stmtsL at h
      injection h with h
      subst h
      exact ⟨[], .nil, ha⟩
    | cons _ _ => simp [stmtsL] at h
  | succ n ih =>
    intro wss sts f f' h ha
    cases wss with
    | nil =>
      unfold stmtsL at h
      injection h with h
      subst h
      exact ⟨[], .nil, ha⟩
    | cons ws wss =>
      cases ws with
      | nil =>
        rw [stmtsL] at h
        obtain ⟨ds, hd, e⟩ := ih wss sts f f' h ha
        exact ⟨ds, .blank hd, e⟩
      | cons w ws =>
        rw [stmtsL] at h
        unfold classify at h
        by_cases h1 : ws.getLast? = some g!"("
        · rw [if_pos h1] at h
          dsimp only at h
          obtain ⟨body, es, ls, sts', rfl, hb, hk, rfl⟩ := of_blockL h
          have e1 := getLast_eq h1
          cases hd : ws.dropLast with
          | cons _ _ => rw [hd, addStmts] at ha <;> simp at ha ⊢
          | nil =>
            rw [hd] at ha e1
            rw [addStmts] at ha
            by_cases hv : blockVerbs.contains w = true
            · rw [if_pos hv, addLines_eq] at ha
              cases hx : addAll f (([] ++ es).map fun l => (w, l)) with
              | none => rw [hx] at ha; simp at ha
              | some f1 =>
                rw [hx] at ha
                obtain ⟨ds, hds, e⟩ := ih ls sts' f1 f' hk ha
                rw [e1]
                refine ⟨_, .block (blockVerbs_iff.1 hv) hb hds, ?_⟩
                rw [addAll_append]
                rw [List.nil_append] at hx
                rw [hx]
                exact e
            · rw [if_neg hv] at ha; simp at ha
        · rw [if_neg h1] at h
          by_cases h2 : ws.getLast? = some g!")" ∧ ws.dropLast.getLast? = some g!"("
          · rw [if_pos h2] at h
            dsimp only at h
            have e1 := getLast_eq h2.1
            have e2 := getLast_eq h2.2
            rw [e2] at e1
            cases hk : stmtsL n wss with
            | none => rw [hk] at h; simp at h
            | some sts' =>
              rw [hk] at h
              injection h with h
              subst h
              cases hd : ws.dropLast.dropLast with
              | cons _ _ => rw [hd, addStmts] at ha <;> simp at ha ⊢
              | nil =>
                rw [hd] at ha e1
                rw [addStmts] at ha
                by_cases hv : blockVerbs.contains w = true
                · rw [if_pos hv, addLines] at ha
                  obtain ⟨ds, hds, e⟩ := ih wss sts' f f' hk ha
                  rw [e1]
                  exact ⟨ds, .empty (blockVerbs_iff.1 hv) hds, e⟩
                · rw [if_neg hv] at ha; simp at ha
          · rw [if_neg h2] at h
            dsimp only at h
            cases hk : stmtsL n wss with
            | none => rw [hk] at h; simp at h
            | some sts' =>
              rw [hk] at h
              injection h with h
              subst h
              rw [addStmts] at ha
              cases hx : add f w ws with
              | none => rw [hx] at ha; simp at ha
              | some f1 =>
                rw [hx] at ha
                obtain ⟨ds, hds, e⟩ := ih wss sts' f1 f' hk ha
                refine ⟨(w, ws) :: ds, .line ?_ ?_ hds, ?_⟩
                · rintro a rfl; exact h1 (by simp)
                · rintro a rfl
                  refine h2 ⟨by simp, ?_⟩
                  rw [show a ++ [g!"(", g!")"] = (a ++ [g!"("]) ++ [g!")"] by simp, List.dropLast_concat]
                  simp
                · rw [addAll, hx]; exact e

end Osv.ModFile
