import Verif.Lemmas.ModText
/-! # go.mod files by lines -/
namespace Osv.ModFile
open Str Spec Spec.ModText

/-! ## Directives that are there once -/

/-- No directive that may be there only once is there twice, counting the ones before. -/
def Once (f : File) (ds : List (Str × List Str)) : Prop :=
  f.hasGo.toNat + (ds.map Prod.fst).count g!"go" ≤ 1 ∧ f.hasToolchain.toNat + (ds.map Prod.fst).count g!"toolchain" ≤ 1 ∧
  f.hasModule.toNat + (ds.map Prod.fst).count g!"module" ≤ 1

theorem flag_step (b : Bool) (verb key : Str) (rest : List Str) :
    (b || verb == key).toNat + rest.count key ≤ 1 ∧ (verb = key → b = false) ↔ b.toNat + (verb :: rest).count key ≤ 1 := by
  rw [List.count_cons]
  by_cases h : verb = key
  · subst h
    cases b <;> simp <;> omega
  · have : (verb == key) = false := by simpa using h
    rw [this]
    simp [h]

theorem once_cons {f : File} {d : Str × List Str} {ds : List (Str × List Str)} {ms : List GoModule} {rs : List GoReplace} :
    Once f (d :: ds) ↔ f.allows d.1 ∧ Once (f.more d.1 ms rs) ds := by
  unfold Once File.allows File.more
  rw [List.map_cons]
  dsimp only
  rw [← flag_step f.hasGo d.1, ← flag_step f.hasToolchain d.1, ← flag_step f.hasModule d.1]
  constructor
  · rintro ⟨⟨a, b⟩, ⟨c, d⟩, ⟨e, f⟩⟩; exact ⟨⟨b, d, f⟩, a, c, e⟩
  · rintro ⟨⟨b, d, f⟩, a, c, e⟩; exact ⟨⟨a, b⟩, ⟨c, d⟩, ⟨e, f⟩⟩

theorem addAll_says {ds : List (Str × List Str)} {f f' : File} (h : addAll f ds = some f') :
    ∃ ms rs, SayAll ds ms rs ∧ Once f ds ∧ f'.require = f.require ++ ms ∧ f'.replace = f.replace ++ rs := by
  induction ds generalizing f with
  | nil =>
    injection h with h
    subst h
    refine ⟨[], [], .nil, ?_, by simp, by simp⟩
    unfold Once
    simp only [List.map_nil, List.count_nil, Nat.add_zero]
    exact ⟨Bool.toNat_le _, Bool.toNat_le _, Bool.toNat_le _⟩
  | cons d ds ih =>
    rw [addAll] at h
    cases ha : add f d.1 d.2 with
    | none => rw [ha] at h; simp at h
    | some f1 =>
      rw [ha] at h
      obtain ⟨ms, rs, hs, hal, rfl⟩ := add_says ha
      obtain ⟨ms', rs', hs', ho, e1, e2⟩ := ih h
      refine ⟨ms ++ ms', rs ++ rs', .cons hs hs', once_cons.2 ⟨hal, ho⟩, ?_, ?_⟩
      · rw [e1]; simp [File.more]
      · rw [e2]; simp [File.more]

theorem says_addAll {ds : List (Str × List Str)} {ms : List GoModule} {rs : List GoReplace} (h : SayAll ds ms rs) :
    ∀ {f : File}, Once f ds → ∃ f', addAll f ds = some f' ∧ f'.require = f.require ++ ms ∧ f'.replace = f.replace ++ rs := by
  induction h with
  | nil => intro f _; exact ⟨f, rfl, by simp, by simp⟩
  | @cons d ds ms ms' rs rs' hs _ ih =>
    intro f ho
    obtain ⟨hal, ho⟩ := (once_cons (ms := ms) (rs := rs)).1 ho
    obtain ⟨f', e, e1, e2⟩ := ih ho
    refine ⟨f', ?_, ?_, ?_⟩
    · rw [addAll, says_add hs hal]; exact e
    · rw [e1]; simp [File.more]
    · rw [e2]; simp [File.more]

theorem once_iff {ds : List (Str × List Str)} :
    Once {} ds ↔ ∀ verb ∈ [g!"module", g!"go", g!"toolchain"], (ds.map Prod.fst).count verb ≤ 1 := by
  unfold Once
  simp only [Bool.toNat_false, Nat.zero_add]
  constructor
  · rintro ⟨h1, h2, h3⟩ verb hv
    simp only [List.mem_cons, List.not_mem_nil, or_false] at hv
    rcases hv with rfl | rfl | rfl
    · exact h3
    · exact h1
    · exact h2
  · intro h
    exact ⟨h _ (by simp), h _ (by simp), h _ (by simp)⟩

/-! ## Lines -/

/-- The end of a file or of a line. -/
def LineEnd (t : Str) : Prop := t = [] ∨ ∃ m, t = '\n' :: m

theorem bare_iff {print : Char → Bool} {w rest : Str} : Bare print w rest ↔ w ≠ [] ∧ (∀ t, w ≠ '"' :: t ∧ w ≠ '`' :: t) ∧ Scan print rest w := by
  rw [scan_iff]
  exact ⟨fun h => ⟨h.nonempty, h.unquoted, h.chars, h.noComment, h.ends⟩, fun ⟨a, b, c, d, e⟩ => ⟨a, c, b, d, e⟩⟩

theorem newline_not_bare {print : Char → Bool} : ¬ BareChar print '\n' := fun h => (bare_not h).2.2.2.1 rfl

theorem bare_lineEnd {print : Char → Bool} {w r tail : Str} (ht : LineEnd tail) : Bare print w (r ++ tail) ↔ Bare print w r := by
  constructor
  · rintro ⟨a, b, c, d, e⟩
    refine ⟨a, b, c, ?_, ?_⟩
    · intro x y z h hz
      exact d x (y ++ tail) z (by rw [← List.append_assoc, h]; simp) hz
    · rcases e with e | ⟨t, e⟩
      · exact .inl fun c t h => e c (t ++ tail) (by rw [h]; rfl)
      · cases r with
        | nil =>
          rcases ht with rfl | ⟨m, rfl⟩
          · simp at e
          · injection e with e _; exact absurd e (by decide)
        | cons c1 r =>
          injection e with e1 e
          cases r with
          | nil =>
            rcases ht with rfl | ⟨m, rfl⟩
            · simp at e
            · injection e with e _; exact absurd e (by decide)
          | cons c2 r =>
            injection e with e2 _
            exact .inr ⟨r, by rw [e1, e2]⟩
  · rintro ⟨a, b, c, d, e⟩
    refine ⟨a, b, c, ?_, ?_⟩
    · intro x y z h hz
      rcases Nat.lt_or_ge x.length w.length with hlt | hge
      · -- the comment would begin within the word, so it lies within the line
        rw [← List.append_assoc] at h
        have hlen : x.length + 2 ≤ (w ++ r).length ∨ (w ++ r).length < x.length + 2 := by omega
        rcases hlen with hl | hl
        · rw [List.append_eq_append_iff] at h
          rcases h with ⟨as, h1, h2⟩ | ⟨bs, h1, h2⟩
          · have : x.length = (w ++ r).length + as.length := by rw [h1]; simp; omega
            omega
          · cases bs with
            | nil => rw [h1] at hl; simp at hl; omega
            | cons b1 bs =>
              injection h2 with h2 h3
              cases bs with
              | nil => rw [h1] at hl; simp at hl
              | cons b2 bs =>
                injection h3 with h3 h4
                exact d x bs z (by rw [h1, ← h2, ← h3]) hz
        · have hw : x.length + 1 = w.length ∧ r = [] := by
            rw [List.length_append] at hl
            refine ⟨by omega, List.length_eq_zero_iff.1 (by omega)⟩
          obtain ⟨h1, rfl⟩ := hw
          rw [List.append_nil] at h
          have h2 : (w ++ tail).drop w.length = (x ++ '/' :: z :: y).drop w.length := by rw [h]
          rw [List.drop_left, ← h1, show x ++ '/' :: z :: y = (x ++ ['/']) ++ z :: y by simp,
            show x.length + 1 = (x ++ ['/']).length by simp, List.drop_left] at h2
          rcases ht with rfl | ⟨m, rfl⟩
          · simp at h2
          · injection h2 with h2 _
            rcases hz with rfl | rfl <;> exact absurd h2 (by decide)
      · exact hge
    · rcases e with e | ⟨t, e⟩
      · refine .inl fun c t h => ?_
        cases r with
        | nil =>
          rcases ht with rfl | ⟨m, rfl⟩
          · simp at h
          · injection h with h _; rw [← h]; exact newline_not_bare
        | cons c1 r => injection h with h _; exact e c r (by rw [h])
      · exact .inr ⟨t ++ tail, by rw [e]; rfl⟩

theorem toks_gaps {print : Char → Bool} {u : Bool} {gap s : Str} (h : Gap gap) : toks print u (gap ++ s) = toks print u s := by
  induction gap with
  | nil => rfl
  | cons c gap ih =>
    rw [List.cons_append, toks_gap (by simpa using h c (by simp)), ih fun d hd => h d (by simp [hd])]

theorem toks_bareWord {print : Char → Bool} {u : Bool} {w left : Str} (h : Bare print w left) :
    toks print u (w ++ left) = (toks print true left).map (tokOf w :: ·) := by
  obtain ⟨h1, h2, h3⟩ := bare_iff.1 h
  cases h3 with
  | nil => exact absurd rfl h1
  | @cons c w hb hc hs =>
    have hq : ¬ (c = '"' ∨ c = '`') := by
      rintro (rfl | rfl)
      · exact (h2 w).1 rfl
      · exact (h2 w).2 rfl
    rw [List.cons_append, toks_bare hb hq hc, scanIdent_iff.2 ⟨rfl, hs⟩]
    dsimp only
    rw [tokOf_word (bare_not hb).2.2.2.2]

theorem toks_quotedWord {print : Char → Bool} {u : Bool} {q : Char} {t left : Str} (hq : q = '"' ∨ q = '`') (h : Enclosed q t) (hn : '\n' ∉ t) :
    toks print u (q :: (t ++ left)) = (toks print true left).map (tokOf (q :: t) :: ·) := by
  rw [toks_quoted hq, scanString_of (by rintro rfl; simp at hq) h hn]
  dsimp only
  rw [tokOf_word]
  rcases hq with rfl | rfl <;> decide

/-- The end of a line in tokens. -/
inductive Ends (print : Char → Bool) : Bool → Str → List Tok → Option (List Tok) → Prop
  | last {u : Bool} {ts : List Tok} : Ends print u [] ts (some ts)
  | lastComment {u : Bool} {ts : List Tok} {eol : Tok} : EolOK u eol → Ends print u [] ts (some (ts ++ [eol]))
  | line {u : Bool} {m : Str} {ts : List Tok} {eol : Tok} : EolOK u eol →
      Ends print u ('\n' :: m) ts ((toks print false m).map fun l => ts ++ eol :: l)

theorem ends_cons {print : Char → Bool} {tail : Str} {ts : List Tok} {r : Option (List Tok)} {w : Str} {u : Bool}
    (h : Ends print u tail ts r) : Ends print u tail (tokOf w :: ts) (r.map (tokOf w :: ·)) := by
  cases h with
  | last => exact .last
  | lastComment he => exact .lastComment he
  | line he =>
    rw [Option.map_map]
    exact .line he

theorem gap_no {gap : Str} (h : Gap gap) : '\n' ∉ gap := fun hm => by have := h _ hm; simp at this

theorem takeWhile_line (l tail : Str) (hl : '\n' ∉ l) (ht : LineEnd tail) :
    (l ++ tail).takeWhile (· != '\n') = l ∧ (l ++ tail).dropWhile (· != '\n') = tail := by
  induction l with
  | nil =>
    rcases ht with rfl | ⟨m, rfl⟩
    · exact ⟨rfl, rfl⟩
    · exact ⟨by simp, by simp⟩
  | cons c l ih =>
    have hc : (c != '\n') = true := by simp; rintro rfl; simp at hl
    obtain ⟨h1, h2⟩ := ih fun hm => hl (by simp [hm])
    rw [List.cons_append, List.takeWhile_cons, List.dropWhile_cons, if_pos hc, if_pos hc, h1, h2]
    exact ⟨rfl, rfl⟩

theorem lineWords_toks {print : Char → Bool} {l : Str} {ws : List Str} (h : LineWords print l ws) : '\n' ∉ l → ∀ (tail : Str), LineEnd tail → ∀ u,
    Ends print (u || !ws.isEmpty) tail (ws.map tokOf) (toks print u (l ++ tail)) := by
  induction h with
  | @nil gap hg =>
    intro _ tail ht u
    rw [toks_gaps hg]
    rcases ht with rfl | ⟨m, rfl⟩
    · exact .last
    · rw [toks_newline]; exact .line .newline
  | @comment gap body hg =>
    intro hn tail ht u
    rw [List.append_assoc, toks_gaps hg, toks_comment (s := '/' :: '/' :: body ++ tail) ((hasPrefix_iff _ _).2 ⟨body ++ tail, rfl⟩)]
    have hn' : '\n' ∉ ('/' :: '/' :: body : Str) := fun hm => hn (by simp only [List.mem_append]; exact .inr hm)
    obtain ⟨h1, h2⟩ := takeWhile_line _ tail hn' ht
    rw [h1, h2]
    have he : EolOK (u || !([] : List Str).isEmpty) (if u = true then Tok.eolComment else Tok.comment ('/' :: '/' :: body)) := by
      cases u
      · exact .comment
      · exact .eolComment
    rcases ht with rfl | ⟨m, rfl⟩
    · exact .lastComment (ts := []) he
    · exact .line (ts := []) he
  | @bare gap w rest ws hg hb _ ih =>
    intro hn tail ht u
    rw [List.append_assoc, toks_gaps hg, List.append_assoc, toks_bareWord ((bare_lineEnd ht).2 hb)]
    have := ih (fun hm => hn (by simp [hm])) tail ht true
    rw [Bool.true_or] at this
    have e : (u || !(w :: ws).isEmpty) = true := by simp
    rw [e]
    exact ends_cons this
  | @quoted gap t rest q ws hg hq he _ ih =>
    intro hn tail ht u
    rw [List.append_assoc, toks_gaps hg, List.cons_append, List.append_assoc, toks_quotedWord hq he (fun hm => hn (by simp [hm]))]
    have := ih (fun hm => hn (by simp [hm])) tail ht true
    rw [Bool.true_or] at this
    have e : (u || !((q :: t) :: ws).isEmpty) = true := by simp
    rw [e]
    exact ends_cons this
  | @punct gap rest c ws hg hc _ ih =>
    intro hn tail ht u
    rw [List.append_assoc, toks_gaps hg, List.cons_append, toks_punct hc]
    have := ih (fun hm => hn (by simp [hm])) tail ht true
    rw [Bool.true_or] at this
    have e : (u || !([c] :: ws).isEmpty) = true := by simp
    rw [e, ← tokOf_punct hc]
    exact ends_cons this

theorem lines_toks {print : Char → Bool} {content : Str} {lines : List Str} (h : LinesOf content lines) :
    ∀ {words : List (List Str)}, Each (LineWords print) lines words → ∃ ts, toks print false content = some ts ∧ TokLines words ts := by
  induction h with
  | nil => intro words hw; cases hw; exact ⟨[], rfl, .nil⟩
  | @last l _ hn =>
    intro words hw
    cases hw with
    | cons h1 h2 =>
      cases h2
      have := lineWords_toks h1 hn [] (.inl rfl) false
      rw [List.append_nil, Bool.false_or] at this
      generalize toks print false l = r at this
      cases this with
      | last => exact ⟨_, rfl, .last⟩
      | lastComment he => exact ⟨_, rfl, .line he .nil⟩
  | @line l rest ls hn _ ih =>
    intro words hw
    cases hw with
    | cons h1 h2 =>
      obtain ⟨ts, e, ht⟩ := ih h2
      have := lineWords_toks h1 hn ('\n' :: rest) (.inr ⟨rest, rfl⟩) false
      rw [Bool.false_or] at this
      generalize toks print false (l ++ '\n' :: rest) = r at this
      cases this with
      | line he => rw [e]; exact ⟨_, rfl, .line he ht⟩

/-! ## Back from tokens to lines -/

theorem lineWords_gap {print : Char → Bool} {c : Char} {l : Str} {ws : List Str} (hc : c = ' ' ∨ c = '\t' ∨ c = '\r') (h : LineWords print l ws) :
    LineWords print (c :: l) ws := by
  have key : ∀ {gap : Str}, Gap gap → Gap (c :: gap) := by
    intro gap hg d hd
    rcases List.mem_cons.1 hd with rfl | hd
    · simpa using hc
    · exact hg d hd
  cases h with
  | nil hg => exact .nil (key hg)
  | comment hg => exact .comment (key hg)
  | bare hg a b => exact .bare (key hg) a b
  | quoted hg a b d => exact .quoted (key hg) a b d
  | punct hg a b => exact .punct (key hg) a b

/-- What the tokens from here on say about the line. -/
structure Line (print : Char → Bool) (u : Bool) (s : Str) (ts : List Tok) (l tail : Str) (ws : List Str) : Prop where
  split : s = l ++ tail
  lineEnd : LineEnd tail
  words : LineWords print l ws
  plain : (∀ w ∈ ws, '\n' ∉ w) → '\n' ∉ l
  ends : Ends print (u || !ws.isEmpty) tail (ws.map tokOf) (some ts)

theorem line_cons {print : Char → Bool} {u : Bool} {s l tail w : Str} {ts : List Tok} {ws : List Str} (p : Str) (h : Line print true s ts l tail ws)
    (hw : LineWords print (p ++ l) (w :: ws)) (hp : '\n' ∉ w → '\n' ∉ p) : Line print u (p ++ s) (tokOf w :: ts) (p ++ l) tail (w :: ws) := by
  refine ⟨by rw [h.split, List.append_assoc], h.lineEnd, hw, ?_, ?_⟩
  · intro ha
    have h1 := hp (ha w (by simp))
    have h2 := h.plain fun v hv => ha v (by simp [hv])
    simp [h1, h2]
  · have e : (u || !(w :: ws).isEmpty) = true := by simp
    rw [e]
    have := h.ends
    rw [Bool.true_or] at this
    exact ends_cons (w := w) this

theorem gap_nil : Gap [] := fun _ h => by simp at h

theorem toks_line (print : Char → Bool) : ∀ (n : Nat) (s : Str) (u : Bool) (ts : List Tok), s.length ≤ n → toks print u s = some ts →
    ∃ l tail ws, Line print u s ts l tail ws := by
  intro n
  induction n with
  | zero =>
    intro s u ts hl h
    obtain rfl := List.length_eq_zero_iff.1 (Nat.le_zero.1 hl)
    rw [toks_nil] at h
    injection h with h
    subst h
    exact ⟨[], [], [], rfl, .inl rfl, .nil gap_nil, by simp, .last⟩
  | succ n ih =>
    intro s u ts hl h
    cases s with
    | nil =>
      rw [toks_nil] at h
      injection h with h
      subst h
      exact ⟨[], [], [], rfl, .inl rfl, .nil gap_nil, by simp, .last⟩
    | cons c s =>
      simp only [List.length_cons] at hl
      by_cases h1 : c = ' ' ∨ c = '\t' ∨ c = '\r'
      · rw [toks_gap h1] at h
        obtain ⟨l, tail, ws, hL⟩ := ih s u ts (by omega) h
        refine ⟨c :: l, tail, ws, by rw [hL.split]; rfl, hL.lineEnd, lineWords_gap h1 hL.words, ?_, hL.ends⟩
        intro ha
        have := hL.plain ha
        have hc : ¬ '\n' = c := by rintro rfl; simp at h1
        simp [this, hc]
      by_cases h2 : hasPrefix (c :: s) g!"//" = true
      · obtain ⟨body, hb⟩ := (hasPrefix_iff _ _).1 h2
        rw [toks_comment h2] at h
        obtain ⟨l, tail, hsp, hln, ht⟩ : ∃ l tail, body = l ++ tail ∧ '\n' ∉ l ∧ LineEnd tail := by
          refine ⟨body.takeWhile (· != '\n'), body.dropWhile (· != '\n'), List.takeWhile_append_dropWhile.symm, ?_, ?_⟩
          · intro hm
            have := List.all_takeWhile (l := body) (p := (· != '\n'))
            rw [List.all_eq_true] at this
            simpa using this _ hm
          · cases hd : body.dropWhile (· != '\n') with
            | nil => exact .inl rfl
            | cons x m =>
              have := Semver.dropWhile_head _ _ _ _ hd
              have hx : x = '\n' := by simpa using this
              exact .inr ⟨m, by rw [hx]⟩
        have hln' : '\n' ∉ ('/' :: '/' :: l : Str) := by simp [hln]
        have e0 : c :: s = ('/' :: '/' :: l) ++ tail := by rw [hb, hsp]; rfl
        rw [e0] at h ⊢
        obtain ⟨e1, e2⟩ := takeWhile_line _ tail hln' ht
        rw [e1, e2] at h
        have he : EolOK (u || !([] : List Str).isEmpty) (if u = true then Tok.eolComment else Tok.comment ('/' :: '/' :: l)) := by
          cases u
          · exact .comment
          · exact .eolComment
        refine ⟨'/' :: '/' :: l, tail, [], rfl, ht, .comment gap_nil, fun _ => hln', ?_⟩
        rcases ht with rfl | ⟨m, rfl⟩
        · rw [← h]; exact .lastComment (ts := []) he
        · rw [← h]; exact .line (ts := []) he
      by_cases h3 : c = '\n'
      · subst h3
        rw [toks_newline] at h
        refine ⟨[], '\n' :: s, [], rfl, .inr ⟨s, rfl⟩, .nil gap_nil, by simp, ?_⟩
        rw [← h]
        exact .line .newline
      by_cases h4 : c ∈ g!"()[]{},"
      · rw [toks_punct h4] at h
        cases hs : toks print true s with
        | none => rw [hs] at h; simp at h
        | some ts' =>
          rw [hs] at h
          injection h with h
          obtain ⟨l, tail, ws, hL⟩ := ih s true ts' (by omega) hs
          have hw : LineWords print ([c] ++ l) ([c] :: ws) := .punct gap_nil h4 hL.words
          rw [← h, ← tokOf_punct h4]
          exact ⟨_, _, _, line_cons [c] hL hw id⟩
      by_cases h5 : c = '"' ∨ c = '`'
      · rw [toks_quoted h5] at h
        cases hq : scanString c s with
        | none => rw [hq] at h; simp at h
        | some x =>
          obtain ⟨t, left⟩ := x
          rw [hq] at h
          dsimp only at h
          obtain ⟨e, hen⟩ := scanString_sound c _ _ _ _ (Nat.le_refl _) hq
          cases hs : toks print true left with
          | none => rw [hs] at h; simp at h
          | some ts' =>
            rw [hs] at h
            injection h with h
            obtain ⟨l, tail, ws, hL⟩ := ih left true ts' (by rw [e] at hl; simp at hl; omega) hs
            have hw : LineWords print ((c :: t) ++ l) ((c :: t) :: ws) := .quoted gap_nil h5 hen hL.words
            rw [← h, ← tokOf_word h4, e]
            exact ⟨_, _, _, line_cons (c :: t) hL hw id⟩
      by_cases h6 : hasPrefix (c :: s) g!"/*" = true ∨ ¬ BareChar print c
      · rw [toks_bad h1 h2 h3 h4 h5 h6] at h; simp at h
      · rw [not_or, Classical.not_not] at h6
        have hc : ¬ CommentAt (c :: s) := by
          rw [commentAt_iff]
          rintro (h | h)
          · exact h2 h
          · exact h6.1 h
        rw [toks_bare h6.2 h5 hc] at h
        cases hq : scanIdent print s with
        | none => rw [hq] at h; simp at h
        | some x =>
          obtain ⟨t, left⟩ := x
          rw [hq] at h
          dsimp only at h
          obtain ⟨e, hen⟩ := scanIdent_iff.1 hq
          cases hs : toks print true left with
          | none => rw [hs] at h; simp at h
          | some ts' =>
            rw [hs] at h
            injection h with h
            obtain ⟨l, tail, ws, hL⟩ := ih left true ts' (by rw [e] at hl; simp at hl; omega) hs
            have hb : Bare print (c :: t) left := by
              refine bare_iff.2 ⟨by simp, ?_, .cons h6.2 (by rw [← e]; exact hc) hen⟩
              intro r
              refine ⟨fun e => h5 (.inl ?_), fun e => h5 (.inr ?_)⟩ <;> injection e
            rw [hL.split, bare_lineEnd hL.lineEnd] at hb
            have hw : LineWords print ([] ++ ((c :: t) ++ l)) ((c :: t) :: ws) := .bare gap_nil hb hL.words
            rw [← h, ← tokOf_word h4, e]
            exact ⟨_, _, _, line_cons (c :: t) hL hw id⟩

theorem toks_lines (print : Char → Bool) : ∀ (n : Nat) (s : Str) (ts : List Tok), s.length ≤ n → toks print false s = some ts →
    ∃ lines wss, Each (LineWords print) lines wss ∧ TokLines wss ts ∧ ((∀ ws ∈ wss, ∀ w ∈ ws, '\n' ∉ w) → LinesOf s lines) := by
  intro n
  induction n with
  | zero =>
    intro s ts hl h
    obtain rfl := List.length_eq_zero_iff.1 (Nat.le_zero.1 hl)
    rw [toks_nil] at h
    injection h with h
    subst h
    exact ⟨[], [], .nil, .nil, fun _ => .nil⟩
  | succ n ih =>
    intro s ts hl h
    by_cases hs : s = []
    · subst hs
      rw [toks_nil] at h
      injection h with h
      subst h
      exact ⟨[], [], .nil, .nil, fun _ => .nil⟩
    · obtain ⟨l, tail, ws, hL⟩ := toks_line print _ s false ts (Nat.le_refl _) h
      have he := hL.ends
      rw [Bool.false_or] at he
      have hsp := hL.split
      generalize hx : some ts = x at he
      cases he with
      | last =>
        injection hx with hx; subst hx
        rw [List.append_nil] at hsp
        subst hsp
        exact ⟨[s], [ws], .cons hL.words .nil, .last, fun ha => .last hs (hL.plain (ha ws (by simp)))⟩
      | lastComment he =>
        injection hx with hx; subst hx
        rw [List.append_nil] at hsp
        subst hsp
        exact ⟨[s], [ws], .cons hL.words .nil, .line he .nil, fun ha => .last hs (hL.plain (ha ws (by simp)))⟩
      | @line m _ eol he =>
        subst hsp
        cases hm : toks print false m with
        | none => rw [hm] at hx; simp at hx
        | some ts' =>
          rw [hm] at hx
          injection hx with hx
          subst hx
          obtain ⟨lines, wss, h1, h2, h3⟩ := ih m ts' (by simp at hl; omega) hm
          exact ⟨l :: lines, ws :: wss, .cons hL.words h1, .line he h2, fun ha =>
            .line (hL.plain (ha ws (by simp))) (h3 fun ws hw => ha ws (by simp [hw]))⟩

/-! ## Line breaks in words -/

theorem lineWords_newline {print : Char → Bool} {l : Str} {ws : List Str} (h : LineWords print l ws) :
    ∀ w ∈ ws, '\n' ∈ w → ∃ t, w = '"' :: t ∨ w = '`' :: t := by
  induction h with
  | nil => intro w hw; simp at hw
  | comment => intro w hw; simp at hw
  | bare _ hb _ ih =>
    intro w hw hn
    rcases List.mem_cons.1 hw with rfl | hw
    · exact absurd (hb.chars _ hn) newline_not_bare
    · exact ih w hw hn
  | @quoted _ t _ q _ _ hq _ _ ih =>
    intro w hw hn
    rcases List.mem_cons.1 hw with rfl | hw
    · rcases hq with rfl | rfl
      · exact ⟨t, .inl rfl⟩
      · exact ⟨t, .inr rfl⟩
    · exact ih w hw hn
  | punct _ hc _ ih =>
    intro w hw hn
    rcases List.mem_cons.1 hw with rfl | hw
    · simp only [List.mem_singleton] at hn
      rw [← hn] at hc
      exact absurd hc (by decide)
    · exact ih w hw hn

theorem numeral_newline {base : Nat} {ds : Str} {n : Nat} (h : Numeral base ds n) : '\n' ∉ ds := by
  induction h with
  | nil => simp
  | snoc _ hd _ ih =>
    intro hm
    rcases List.mem_append.1 hm with hm | hm
    · exact ih hm
    · simp only [List.mem_singleton] at hm
      rw [← hm] at hd
      have := hexValue_iff.2 hd
      exact absurd this (by simp [hexValue])

theorem escapes_newline {t s : Str} (h : Escapes t s) : '\n' ∉ t := by
  induction h with
  | nil => simp
  | plain _ _ h _ ih => simp [ih, Ne.symm h]
  | @simple e c _ _ h _ ih =>
    have : ¬ '\n' = e := by
      rintro rfl
      have key : ∀ x ∈ simpleEscapes, x.1 ≠ '\n' := by decide
      exact key _ h rfl
    simp [ih, this]
  | hex _ h _ _ ih => simp [ih, numeral_newline h]
  | short _ h _ _ ih => simp [ih, numeral_newline h]
  | long _ h _ _ ih => simp [ih, numeral_newline h]
  | octal _ h _ _ ih => simp [ih, numeral_newline h]

theorem value_newline {w s : Str} (h : Value w s) {t : Str} (hq : w = '"' :: t ∨ w = '`' :: t) : '\n' ∉ w := by
  cases h with
  | quoted he => have := escapes_newline he; simp [this]
  | bare hb =>
    rcases hq with rfl | rfl
    · exact absurd rfl (hb '"' (by simp)).1
    · exact absurd rfl (hb '`' (by simp)).2.2

theorem number_head {m : Str} (h : Number m) : ∃ c r, m = c :: r ∧ Digit c := by
  obtain ⟨h1, h2, _⟩ := h
  cases m with
  | nil => exact absurd rfl h1
  | cons c r => exact ⟨c, r, rfl, h2 c (by simp)⟩

theorem says_newline {verb : Str} {args : List Str} {ms : List GoModule} {rs : List GoReplace} (h : Says (verb, args) ms rs) :
    ∀ w ∈ args, (∃ t, w = '"' :: t ∨ w = '`' :: t) → '\n' ∉ w := by
  have hmod : ∀ {p v : Str} {m : GoModule}, Module p v m → ∀ w ∈ [p, v], (∃ t, w = '"' :: t ∨ w = '`' :: t) → '\n' ∉ w := by
    intro p v m hm w hw ⟨t, ht⟩
    cases hm with
    | mk h1 h2 _ _ _ =>
      simp only [List.mem_cons, List.not_mem_nil, or_false] at hw
      rcases hw with rfl | rfl
      · exact value_newline h1 ht
      · exact value_newline h2 ht
  have hrep : ∀ {l : List Str} {m : GoModule}, Replacement l m → ∀ w ∈ l, (∃ t, w = '"' :: t ∨ w = '`' :: t) → '\n' ∉ w := by
    intro l m hm w hw ⟨t, ht⟩
    cases hm with
    | dir h1 _ _ =>
      simp only [List.mem_cons, List.not_mem_nil, or_false] at hw
      subst hw
      exact value_newline h1 ht
    | mod h1 h2 _ _ =>
      simp only [List.mem_cons, List.not_mem_nil, or_false] at hw
      rcases hw with rfl | rfl
      · exact value_newline h1 ht
      · exact value_newline h2 ht
  have hfix : ∀ {v : Str}, (∀ t, ¬ (v = '"' :: t ∨ v = '`' :: t)) → ∀ w ∈ [v], (∃ t, w = '"' :: t ∨ w = '`' :: t) → '\n' ∉ w := by
    intro v hv w hw ⟨t, ht⟩
    simp only [List.mem_cons, List.not_mem_nil, or_false] at hw
    subst hw
    exact absurd ht (hv t)
  have hone : ∀ {p path : Str}, Value p path → ∀ w ∈ [p], (∃ t, w = '"' :: t ∨ w = '`' :: t) → '\n' ∉ w := by
    intro p path h w hw ⟨t, ht⟩
    simp only [List.mem_cons, List.not_mem_nil, or_false] at hw
    subst hw
    exact value_newline h ht
  cases h with
  | module h => exact hone h
  | go h =>
    refine hfix ?_
    intro t ht
    cases h with
    | mk hm _ _ _ _ =>
      obtain ⟨c, r, rfl, hd⟩ := number_head hm
      simp only [List.cons_append, List.cons.injEq] at ht
      rcases ht with ⟨rfl, _⟩ | ⟨rfl, _⟩
      · exact absurd hd (by unfold Digit; decide)
      · exact absurd hd (by unfold Digit; decide)
  | toolchain h =>
    refine hfix ?_
    intro t ht
    rcases h with rfl | rfl | ⟨u, rfl⟩ <;> simp at ht
  | godebug _ h =>
    refine hfix ?_
    rintro t (rfl | rfl)
    · exact absurd (by decide) (h '"' (by simp))
    · exact absurd (by decide) (h '`' (by simp))
  | require h => exact hmod h
  | exclude h => exact hmod h
  | replaceAll h1 _ h2 =>
    intro w hw hq
    simp only [List.mem_cons] at hw
    rcases hw with rfl | rfl | hw
    · exact hone h1 _ (by simp) hq
    · decide
    · exact hrep h2 w hw hq
  | replaceOne h1 h2 =>
    intro w hw hq
    simp only [List.mem_cons] at hw
    rcases hw with rfl | rfl | rfl | hw
    · exact hmod h1 _ (by simp) hq
    · exact hmod h1 _ (by simp) hq
    · decide
    · exact hrep h2 w hw hq
  | retract h _ _ => exact hone h
  | retractRange h1 h2 =>
    intro w hw hq
    simp only [List.mem_cons, List.not_mem_nil, or_false] at hw
    rcases hw with rfl | rfl | rfl | rfl | rfl
    · decide
    · exact hone h1 _ (by simp) hq
    · decide
    · exact hone h2 _ (by simp) hq
    · decide
  | tool h => exact hone h
  | ignore h => exact hone h

theorem verb_newline {verb : Str} {args : List Str} {ms : List GoModule} {rs : List GoReplace} (h : Says (verb, args) ms rs) : '\n' ∉ verb := by
  cases h <;> decide

theorem block_newline {verb : Str} (h : IsBlock verb) : '\n' ∉ verb := by
  have key : ∀ v ∈ [g!"module", g!"godebug", g!"require", g!"exclude", g!"replace", g!"retract", g!"tool", g!"ignore"], '\n' ∉ v := by decide
  exact key verb h

theorem sayAll_each {ds : List (Str × List Str)} {ms : List GoModule} {rs : List GoReplace} (h : SayAll ds ms rs) :
    ∀ d ∈ ds, ∃ ms rs, Says d ms rs := by
  induction h with
  | nil => intro d hd; simp at hd
  | cons hs _ ih =>
    intro d hd
    rcases List.mem_cons.1 hd with rfl | hd
    · exact ⟨_, _, hs⟩
    · exact ih d hd

theorem blockLines_mem {body es : List (List Str)} (h : BlockLines body es) : ∀ ws ∈ body, ws = [] ∨ ws ∈ es := by
  induction h with
  | nil => intro ws hw; simp at hw
  | blank _ ih =>
    intro ws hw
    rcases List.mem_cons.1 hw with rfl | hw
    · exact .inl rfl
    · exact ih ws hw
  | entry _ _ ih =>
    intro ws hw
    rcases List.mem_cons.1 hw with rfl | hw
    · exact .inr (by simp)
    · exact (ih ws hw).imp id fun h => by simp [h]

/-- The words of the lines are those of directives, or of the lines around blocks. -/
theorem directives_words {wss : List (List Str)} {ds : List (Str × List Str)} (h : Directives wss ds) :
    ∀ ws ∈ wss, ∀ w ∈ ws, (∃ d ∈ ds, w = d.1 ∨ w ∈ d.2) ∨ '\n' ∉ w := by
  induction h with
  | nil => intro ws hw; simp at hw
  | blank _ ih =>
    intro ws hw w hm
    rcases List.mem_cons.1 hw with rfl | hw
    · simp at hm
    · exact ih ws hw w hm
  | @line verb args ls ds _ _ _ ih =>
    intro ws hw w hm
    rcases List.mem_cons.1 hw with rfl | hw
    · exact .inl ⟨(verb, args), by simp, List.mem_cons.1 hm⟩
    · rcases ih ws hw w hm with ⟨d, hd, h⟩ | h
      · exact .inl ⟨d, by simp [hd], h⟩
      · exact .inr h
  | @empty verb ls ds hv _ ih =>
    intro ws hw w hm
    rcases List.mem_cons.1 hw with rfl | hw
    · simp only [List.mem_cons, List.not_mem_nil, or_false] at hm
      rcases hm with rfl | rfl | rfl
      · exact .inr (block_newline hv)
      · exact .inr (by decide)
      · exact .inr (by decide)
    · exact ih ws hw w hm
  | @block verb body es ls ds hv hb _ ih =>
    intro ws hw w hm
    simp only [List.mem_cons, List.mem_append] at hw
    rcases hw with rfl | hw | rfl | hw
    · simp only [List.mem_cons, List.not_mem_nil, or_false] at hm
      rcases hm with rfl | rfl
      · exact .inr (block_newline hv)
      · exact .inr (by decide)
    · rcases blockLines_mem hb ws hw with rfl | he
      · simp at hm
      · exact .inl ⟨(verb, ws), by simp [he], .inr hm⟩
    · simp only [List.mem_cons, List.not_mem_nil, or_false] at hm
      subst hm
      exact .inr (by decide)
    · rcases ih ws hw w hm with ⟨d, hd, h⟩ | h
      · exact .inl ⟨d, by simp [hd], h⟩
      · exact .inr h

theorem each_mem {α β : Type} {R : α → β → Prop} {l : List α} {m : List β} (h : Each R l m) : ∀ b ∈ m, ∃ a ∈ l, R a b := by
  induction h with
  | nil => intro b hb; simp at hb
  | cons h1 _ ih =>
    intro b hb
    rcases List.mem_cons.1 hb with rfl | hb
    · exact ⟨_, by simp, h1⟩
    · obtain ⟨a, ha, hr⟩ := ih b hb
      exact ⟨a, by simp [ha], hr⟩

/-! ## Whole files -/

theorem decode_of_reads {print : Char → Bool} {content : Str} {f : GoModFile} (h : Reads print content f) : decode print content = some f := by
  cases h with
  | mk h1 h2 h3 h4 h5 =>
    obtain ⟨ts, e1, ht⟩ := lines_toks h1 h2
    obtain ⟨sts, e2, hs⟩ := directives_stmts h3 _ (Nat.le_refl _)
    obtain ⟨f', e3, e4, e5⟩ := says_addAll h4 (f := {}) (once_iff.2 h5)
    have e6 : stmts .top ts = some sts := by rw [(stmts_lines ht _ (Nat.le_refl _)).1, e2]
    have e7 : lex print content = some ts := e1
    unfold decode parse
    rw [e7, Option.bind_some, e6, Option.bind_some, hs, e3, Option.map_some, e4, e5]
    rfl

theorem reads_of_decode {print : Char → Bool} {content : Str} {f : GoModFile} (h : decode print content = some f) : Reads print content f := by
  unfold decode parse at h
  cases e1 : lex print content with
  | none => rw [e1] at h; simp at h
  | some ts =>
    rw [e1, Option.bind_some] at h
    cases e2 : stmts .top ts with
    | none => rw [e2] at h; simp at h
    | some sts =>
      rw [e2, Option.bind_some] at h
      cases e3 : addStmts {} sts with
      | none => rw [e3] at h; simp at h
      | some f' =>
        rw [e3, Option.map_some] at h
        injection h with h
        obtain ⟨lines, wss, hw, ht, hl⟩ := toks_lines print _ content ts (Nat.le_refl _) e1
        rw [(stmts_lines ht _ (Nat.le_refl _)).1] at e2
        obtain ⟨ds, hd, ha⟩ := stmts_directives _ _ _ _ _ e2 e3
        obtain ⟨ms, rs, hs, ho, e4, e5⟩ := addAll_says ha
        have hlines : LinesOf content lines := by
          refine hl fun ws hws w hm => ?_
          rcases directives_words hd ws hws w hm with ⟨d, hdm, h⟩ | h
          · obtain ⟨ms', rs', hsd⟩ := sayAll_each hs d hdm
            rcases h with rfl | h
            · exact verb_newline (args := d.2) hsd
            · intro hn
              obtain ⟨l, _, hlw⟩ := each_mem hw ws hws
              exact says_newline (verb := d.1) hsd w h (lineWords_newline hlw w hm hn) hn
          · exact h
        rw [← h, e4, e5]
        exact .mk hlines hw hd hs (once_iff.1 ho)

theorem decode_iff {print : Char → Bool} {content : Str} {f : GoModFile} : decode print content = some f ↔ Reads print content f :=
  ⟨reads_of_decode, decode_of_reads⟩

end Osv.ModFile
