import Verif.Spec.Pnpm
import Verif.Props.C55
import Verif.Lemmas.Str
import Verif.Lemmas.Text
import Verif.Lemmas.RegexMatch
import Verif.Lemmas.PipGraph
/-! # Facts for pnpm-lock.yaml -/
namespace Osv.Pnpm
open Osv Str Spec

/-- Two splits of a text at the first character outside a class. -/
theorem run_unique {p : Char → Bool} {a b c d : Str} (ha : ∀ x ∈ a, p x = true) (hc : ∀ x ∈ c, p x = true)
    (hb : ∀ x ∈ b.head?, p x = false) (hd : ∀ x ∈ d.head?, p x = false) (e : a ++ b = c ++ d) : a = c ∧ b = d := by
  induction a generalizing c with
  | nil =>
    cases c with
    | nil => exact ⟨rfl, e⟩
    | cons x c =>
      simp only [List.nil_append, List.cons_append] at e
      rw [e] at hb
      have h1 := hb x (by simp)
      rw [hc x (by simp)] at h1
      cases h1
  | cons x a ih =>
    cases c with
    | nil =>
      simp only [List.nil_append, List.cons_append] at e
      rw [← e] at hd
      have h1 := hd x (by simp)
      rw [ha x (by simp)] at h1
      cases h1
    | cons y c =>
      simp only [List.cons_append, List.cons.injEq] at e
      obtain ⟨rfl, e⟩ := e
      obtain ⟨rfl, h2⟩ := ih (fun z hz => ha z (by simp [hz])) (fun z hz => hc z (by simp [hz])) e
      exact ⟨rfl, h2⟩

/-- In peers that are not nested, no `@` has a version and a parenthesis or the end behind it. -/
theorem flat_no_at {peers : Str} (hp : FlatPeers peers) : ∀ {b w t : Str}, peers = b ++ '@' :: (w ++ t) →
    (∀ c ∈ w, isPnpmVersionChar c = true) → (t = [] ∨ ∃ r, t = '(' :: r) → False := by
  induction hp with
  | nil => intro b w t e; simp at e
  | cons p rest hp _ ih =>
    intro b w t e hw ht
    cases b with
    | nil => simp at e
    | cons b0 b =>
      simp only [List.cons_append, List.cons.injEq] at e
      obtain ⟨_, e⟩ := e
      rcases List.append_eq_append_iff.1 e with ⟨a', e1, e2⟩ | ⟨c', e1, e2⟩
      · cases a' with
        | nil => simp at e2
        | cons a0 a' =>
          simp only [List.cons_append, List.cons.injEq] at e2
          exact ih e2.2 hw ht
      · cases c' with
        | nil => simp at e2
        | cons c0 c' =>
          simp only [List.cons_append, List.cons.injEq] at e2
          obtain ⟨rfl, e2⟩ := e2
          have hc' : ∀ c ∈ c', c ≠ '(' ∧ c ≠ ')' ∧ c ≠ '/' := fun c hc => hp c (by rw [e1]; simp [hc])
          rcases List.append_eq_append_iff.1 e2 with ⟨a', e3, e4⟩ | ⟨d', e3, e4⟩
          · rcases ht with rfl | ⟨r, rfl⟩
            · simp at e4
            · cases a' with
              | nil => simp at e4
              | cons a0 a' =>
                simp only [List.cons_append, List.cons.injEq] at e4
                exact (hc' a0 (by rw [e3]; simp)).1 e4.1.symm
          · cases d' with
            | nil =>
              simp only [List.nil_append] at e4
              rcases ht with rfl | ⟨r, rfl⟩ <;> simp at e4
            | cons d0 d' =>
              simp only [List.cons_append, List.cons.injEq] at e4
              have := hw d0 (by rw [e3]; simp)
              rw [← e4.1] at this
              revert this; decide

theorem part_no {n : Str} (h : NamePart n) {c : Char} (hc : c = '/' ∨ c = '@' ∨ c = '(' ∨ c = '\n' ∨ c = '\'') : c ∉ n := by
  intro hm
  obtain ⟨h1, h2, h3, h4, h5⟩ := h.2 c hm
  rcases hc with h | h | h | h | h <;> contradiction

theorem name_no_at {n : Str} (h : PnpmName n) {u r : Str} (hu : u ≠ []) : n ≠ u ++ '@' :: r := by
  rintro rfl
  rcases h with h | ⟨scope, m, hs, hm, e⟩
  · exact part_no h (c := '@') (by simp) (by simp)
  · cases u with
    | nil => exact hu rfl
    | cons u0 u =>
      simp only [List.cons_append, List.cons.injEq] at e
      have : '@' ∈ scope ++ '/' :: m := by rw [← e.2]; simp
      simp only [List.mem_append, List.mem_cons] at this
      rcases this with h | h | h
      · exact part_no hs (by simp) h
      · exact absurd h (by decide)
      · exact part_no hm (by simp) h

theorem name_no_newline {n : Str} (h : PnpmName n) : '\n' ∉ n := by
  rcases h with h | ⟨scope, m, hs, hm, rfl⟩
  · exact part_no h (by simp)
  · simp only [List.cons_append, List.mem_cons, List.mem_append, not_or]
    exact ⟨by decide, part_no hs (by simp), by decide, part_no hm (by simp)⟩

theorem name_ne {n : Str} (h : PnpmName n) : n ≠ [] := by
  rcases h with h | ⟨scope, m, hs, hm, rfl⟩
  · exact h.1
  · simp

theorem version_ne {v : Str} (h : PnpmVersion v) : v ≠ [] := by
  obtain ⟨⟨c, r, rfl, _⟩, _⟩ := h; simp

theorem version_no {v : Str} (h : PnpmVersion v) {c : Char} (hc : c = '/' ∨ c = '@' ∨ c = '_' ∨ c = '(') : c ∉ v := by
  intro hm
  have := h.2 c hm
  revert this
  rcases hc with rfl | rfl | rfl | rfl <;> decide

theorem version_char {v : Str} (h : PnpmVersion v) (hp : '+' ∉ v) : ∀ c ∈ v, isPnpmVersionChar c = true := by
  intro c hc
  simp only [isPnpmVersionChar, isWord, Bool.or_eq_true, Bool.and_eq_true, decide_eq_true_eq, beq_iff_eq]
  rcases h.2 c hc with h | h | h | h | h | h
  · simp only [isDigit, Bool.and_eq_true, decide_eq_true_eq] at h
    exact .inl (.inl (.inl (.inl (.inl h))))
  · exact .inl (.inl (.inl (.inr h)))
  · exact .inl (.inl (.inl (.inl (.inr h))))
  · exact .inl (.inr h)
  · exact .inr h
  · exact absurd (h ▸ hc) hp

theorem startsWithNumber_iff (s : Str) : startsWithNumber s = true ↔ ∃ c r, s = c :: r ∧ isDigit c = true := by
  unfold startsWithNumber
  rw [Re.isMatch_iff]
  constructor
  · rintro ⟨pre, x, post, k, e, h⟩
    obtain ⟨y, z, _, rfl, h1, h2⟩ := Re.matches_cat_cons.1 h
    obtain ⟨hb, rfl, rfl⟩ := Re.matches_bot.1 h1
    obtain ⟨c, rfl, hc, _⟩ := Re.matches_cls.1 h2
    have : pre = [] := by simpa using hb
    subst this
    exact ⟨c, post, by simpa using e, hc⟩
  · rintro ⟨c, r, rfl, hc⟩
    exact ⟨[], [c], r, [], rfl, Re.matches_cat_cons.2 ⟨[], [c], [], rfl, Re.matches_bot.2 ⟨rfl, rfl, rfl⟩,
      Re.matches_cls.2 ⟨c, rfl, hc, rfl⟩⟩⟩

/-- What a match of the expression says. -/
theorem matches_nameAt {x rest : Str} {k : Caps} : Re.Matches rePnpmNameAtVersion true [] x rest k ↔
    ∃ u w e, u ≠ [] ∧ '\n' ∉ u ∧ w ≠ [] ∧ (∀ c ∈ w, isPnpmVersionChar c = true) ∧ x = u ++ '@' :: (w ++ e) ∧
      (e = ['('] ∨ (e = [] ∧ rest = [])) ∧ k = [(2, w), (1, u)] := by
  unfold rePnpmNameAtVersion
  constructor
  · intro h
    obtain ⟨_, z0, _, rfl, h0, h⟩ := Re.matches_cat_cons.1 h
    obtain ⟨_, rfl, rfl⟩ := Re.matches_bot.1 h0
    obtain ⟨u, z1, _, rfl, h1, h⟩ := Re.matches_cat_cons.1 h
    obtain ⟨_, h1', rfl⟩ := Re.matches_cap.1 h1
    obtain ⟨hu, hn, rfl⟩ := Re.matches_plus_cls.1 h1'
    obtain ⟨_, z2, _, rfl, h2, h⟩ := Re.matches_cat_cons.1 h
    obtain ⟨rfl, rfl⟩ := Re.matches_ch.1 h2
    obtain ⟨w, e, _, rfl, h3, h⟩ := Re.matches_cat_cons.1 h
    obtain ⟨_, h3', rfl⟩ := Re.matches_cap.1 h3
    obtain ⟨hw, hv, rfl⟩ := Re.matches_plus_cls.1 h3'
    refine ⟨u, w, e, hu, ?_, hw, hv, by simp, ?_⟩
    · intro hm; have := hn _ hm; simp at this
    · rcases Re.matches_alt.1 h with h | h
      · obtain ⟨rfl, rfl⟩ := Re.matches_ch.1 h
        exact ⟨Or.inl rfl, rfl⟩
      · obtain ⟨rfl, hr, rfl⟩ := Re.matches_eot.1 h
        exact ⟨Or.inr ⟨rfl, hr⟩, rfl⟩
  · rintro ⟨u, w, e, hu, hn, hw, hv, rfl, he, rfl⟩
    refine Re.matches_cat_cons.2 ⟨[], _, [], rfl, Re.matches_bot.2 ⟨rfl, rfl, rfl⟩, ?_⟩
    refine Re.matches_cat_cons.2 ⟨u, '@' :: (w ++ e), _, rfl, Re.matches_cap.2 ⟨[],
      Re.matches_plus_cls.2 ⟨hu, Commit.any_of hn, rfl⟩, rfl⟩, ?_⟩
    refine Re.matches_cat_cons.2 ⟨['@'], w ++ e, _, rfl, Re.matches_ch.2 ⟨rfl, rfl⟩, ?_⟩
    refine Re.matches_cat_cons.2 ⟨w, e, _, rfl, Re.matches_cap.2 ⟨_, Re.matches_plus_cls.2 ⟨hw, hv, rfl⟩, rfl⟩, ?_⟩
    rcases he with rfl | ⟨rfl, rfl⟩
    · exact Re.matches_alt.2 (.inl (Re.matches_ch.2 ⟨rfl, rfl⟩))
    · exact Re.matches_alt.2 (.inr (Re.matches_eot.2 ⟨rfl, rfl, rfl⟩))

/-- A text with exactly one reading is read so. -/
theorem parseNameAtVersion_unique {s name version : Str}
    (hex : ∃ t, name ≠ [] ∧ '\n' ∉ name ∧ version ≠ [] ∧ (∀ c ∈ version, isPnpmVersionChar c = true) ∧
      s = name ++ '@' :: (version ++ t) ∧ (t = [] ∨ ∃ r, t = '(' :: r))
    (hun : ∀ u w t, u ≠ [] → (∀ c ∈ w, isPnpmVersionChar c = true) → s = u ++ '@' :: (w ++ t) →
      (t = [] ∨ ∃ r, t = '(' :: r) → u = name ∧ w = version) : parseNameAtVersion s = (name, version) := by
  have hs := Re.find_start (r := rePnpmNameAtVersion) (fun bol k x rest k' h => Re.cat_bot rfl h) s
  unfold parseNameAtVersion
  cases hf : rePnpmNameAtVersion.find s with
  | none =>
    exfalso
    obtain ⟨t, h1, h2, h3, h4, h5, h6⟩ := hex
    rcases h6 with rfl | ⟨r, rfl⟩
    · exact hs.2 hf s [] _ (by simp) (matches_nameAt.2 ⟨name, version, [], h1, h2, h3, h4, h5, .inr ⟨rfl, rfl⟩, rfl⟩)
    · exact hs.2 hf (name ++ '@' :: (version ++ ['('])) r _ (by rw [h5]; simp)
        (matches_nameAt.2 ⟨name, version, ['('], h1, h2, h3, h4, rfl, .inl rfl, rfl⟩)
  | some f =>
    obtain ⟨_, e, hm⟩ := hs.1 f hf
    obtain ⟨u, w, e', hu, _, _, hv, hx, he, hk⟩ := matches_nameAt.1 hm
    have : u = name ∧ w = version := by
      refine hun u w (e' ++ f.post) hu hv (by rw [e, hx]; simp) ?_
      rcases he with rfl | ⟨rfl, hp⟩
      · exact .inr ⟨f.post, rfl⟩
      · exact .inl (by rw [hp]; rfl)
    obtain ⟨rfl, rfl⟩ := this
    simp only [Re.Found.group, hk]
    rfl

theorem flat_head {p : Str} (h : FlatPeers p) : p = [] ∨ ∃ r, p = '(' :: r := by
  cases h with
  | nil => exact .inl rfl
  | cons p rest => exact .inr ⟨p ++ ')' :: rest, by simp⟩

theorem flat_no_slash {p : Str} (h : FlatPeers p) : '/' ∉ p := by
  induction h with
  | nil => simp
  | cons p rest hp _ ih =>
    simp only [List.cons_append, List.mem_cons, List.mem_append, not_or]
    exact ⟨by decide, fun hm => (hp _ hm).2.2 rfl, by decide, ih⟩

theorem stop {t : Str} (ht : t = [] ∨ ∃ r, t = '(' :: r) : ∀ x ∈ t.head?, isPnpmVersionChar x = false := by
  rcases ht with rfl | ⟨r, rfl⟩
  · simp
  · intro x hx; simp at hx; subst hx; decide

theorem parseNameAtVersion_flat {name version peers : Str} (hn : PnpmName name) (hv : PnpmVersion version)
    (hp : '+' ∉ version) (hf : FlatPeers peers) :
    parseNameAtVersion (name ++ '@' :: (version ++ peers)) = (name, version) := by
  refine parseNameAtVersion_unique ⟨peers, name_ne hn, name_no_newline hn, version_ne hv, version_char hv hp, rfl,
    flat_head hf⟩ ?_
  intro u w t hu hw e ht
  rcases List.append_eq_append_iff.1 e with ⟨a', e1, e2⟩ | ⟨c', e1, e2⟩
  · cases a' with
    | nil =>
      simp only [List.nil_append, List.cons.injEq, true_and] at e2
      exact ⟨by simpa using e1, (run_unique (version_char hv hp) hw (stop (flat_head hf)) (stop ht) e2).1.symm⟩
    | cons a0 a' =>
      exfalso
      simp only [List.cons_append, List.cons.injEq] at e2
      rcases List.append_eq_append_iff.1 e2.2 with ⟨b, e3, e4⟩ | ⟨d, e3, e4⟩
      · exact flat_no_at hf e4 hw ht
      · cases d with
        | nil => exact flat_no_at hf (b := []) (by simpa using e4.symm) hw ht
        | cons d0 d =>
          simp only [List.cons_append, List.cons.injEq] at e4
          refine version_no hv (c := '@') (by simp) ?_
          rw [e3, ← e4.1]; simp
  · cases c' with
    | nil =>
      simp only [List.nil_append, List.cons.injEq, true_and] at e2
      exact ⟨by simpa using e1.symm, (run_unique (version_char hv hp) hw (stop (flat_head hf)) (stop ht) e2.symm).1.symm⟩
    | cons c0 c' =>
      exfalso
      simp only [List.cons_append, List.cons.injEq] at e2
      rw [← e2.1] at e1
      exact name_no_at hn hu e1

theorem codeload_iff {t c : Str} : (∃ f, reCommitCodeload.find t = some f ∧ f.group 1 = c) ↔
    ∃ pre o r, o ≠ [] ∧ r ≠ [] ∧ (∀ x ∈ o, isWord x = true ∨ x = '-' ∨ x = '.') ∧ (∀ x ∈ r, isWord x = true ∨ x = '-' ∨ x = '.') ∧
      c ≠ [] ∧ (∀ x ∈ c, isWord x = true) ∧
      t = pre ++ g!"https://codeload.github.com/" ++ o ++ g!"/" ++ r ++ g!"/tar.gz/" ++ c := by
  constructor
  · rintro ⟨f, h, rfl⟩
    obtain ⟨e, hm⟩ := Re.findFrom_sound _ _ _ _ h
    obtain ⟨_, z1, _, e1, h1, hm⟩ := Re.matches_cat_cons.1 hm
    obtain ⟨rfl, rfl⟩ := Re.matches_lit.1 h1
    obtain ⟨_, z2, _, rfl, h2, hm⟩ := Re.matches_cat_cons.1 hm
    obtain ⟨o, ho, ho', rfl, rfl⟩ := Commit.matches_segment.1 h2
    obtain ⟨_, z3, _, rfl, h3, hm⟩ := Re.matches_cat_cons.1 hm
    obtain ⟨r, hr, hr', rfl, rfl⟩ := Commit.matches_segment.1 h3
    obtain ⟨_, z4, _, rfl, h4, hm⟩ := Re.matches_cat_cons.1 hm
    obtain ⟨rfl, rfl⟩ := Re.matches_lit.1 h4
    obtain ⟨_, c, _, rfl, h5, hm⟩ := Re.matches_cat_cons.1 hm
    obtain ⟨rfl, rfl⟩ := Re.matches_ch.1 h5
    obtain ⟨hc, hrest, hk⟩ := Commit.word1_eot.1 hm
    have hg : f.group 1 = c := by unfold Re.Found.group; rw [hk]; rfl
    rw [hg]
    refine ⟨f.pre, o, r, ho, hr, ho', hr', hc.1, hc.2, ?_⟩
    rw [e, e1, hrest]
    simp
  · rintro ⟨pre, o, r, ho, hr, ho', hr', hc, hc', rfl⟩
    have hne : reCommitCodeload.find (pre ++ g!"https://codeload.github.com/" ++ o ++ g!"/" ++ r ++ g!"/tar.gz/" ++ c) ≠ none := by
      refine Commit.isMatch_of (pre := pre) (post := [])
        (x := g!"https://codeload.github.com" ++ '/' :: o ++ '/' :: r ++ g!"/tar.gz" ++ '/' :: c) (k := [(1, c)]) (by simp) ?_
      refine Re.matches_cat_cons.2 ⟨g!"https://codeload.github.com", '/' :: o ++ '/' :: r ++ g!"/tar.gz" ++ '/' :: c, _, by simp,
        Re.matches_lit.2 ⟨rfl, rfl⟩, ?_⟩
      refine Re.matches_cat_cons.2 ⟨'/' :: o, '/' :: r ++ g!"/tar.gz" ++ '/' :: c, _, by simp,
        Commit.matches_segment.2 ⟨o, ho, ho', rfl, rfl⟩, ?_⟩
      refine Re.matches_cat_cons.2 ⟨'/' :: r, g!"/tar.gz" ++ '/' :: c, _, by simp,
        Commit.matches_segment.2 ⟨r, hr, hr', rfl, rfl⟩, ?_⟩
      refine Re.matches_cat_cons.2 ⟨g!"/tar.gz", '/' :: c, _, by simp, Re.matches_lit.2 ⟨rfl, rfl⟩, ?_⟩
      refine Re.matches_cat_cons.2 ⟨['/'], c, _, by simp, Re.matches_ch.2 ⟨rfl, rfl⟩, ?_⟩
      exact Commit.word1_eot.2 ⟨⟨hc, hc'⟩, rfl, rfl⟩
    obtain ⟨f, hf⟩ := Option.ne_none_iff_exists'.1 hne
    refine ⟨f, hf, ?_⟩
    obtain ⟨y, d, e, hd, hc2⟩ := Commit.matcher_tail (r := reCommitCodeload) (by simp [commitMatchers]) hf
    exact (Commit.tail_unique (y := y) (y' := pre ++ g!"https://codeload.github.com/" ++ o ++ g!"/" ++ r ++ g!"/tar.gz")
      (d' := '/') hd (by decide) hc2.2 hc' (by rw [← e]; simp)).2.2

theorem pnpmCommit_iff (p : PnpmLockPackage) (c : Str) : pnpmCommit p = c ↔ PnpmCommit p c := by
  unfold pnpmCommit PnpmCommit CodeloadTarball
  simp only [← codeload_iff, ← hasPrefix_iff]
  by_cases hp : hasPrefix p.tarball g!"https://codeload.github.com" = true
  · rw [if_pos hp]
    cases hf : reCommitCodeload.find p.tarball with
    | none => simp only [reduceCtorEq, false_and, exists_false, and_false, not_false_eq_true, implies_true, true_and, false_or, eq_comm]
    | some f =>
      simp only [hp, Option.some.injEq, true_and, exists_eq_left']
      exact ⟨.inl, fun h => h.elim id fun h => absurd rfl (h.1 _)⟩
  · rw [if_neg hp]
    simp only [hp, Bool.false_eq_true, false_and, not_false_eq_true, implies_true, true_and, false_or, eq_comm]

theorem isFile_iff (s : Str) : hasPrefix s g!"file:" = true ↔ IsFile s := hasPrefix_iff _ _

theorem split_host {host s : Str} (h : '/' ∉ host) : splitChar '/' (host ++ '/' :: s) = host :: splitChar '/' s :=
  splitChar_append _ _ _ h

theorem not_at {n s : Str} (h : NamePart n) : hasPrefix (n ++ s) g!"@" = false := by
  cases n with
  | nil => exact absurd rfl h.1
  | cons c n =>
    have : c ≠ '@' := (h.2 c (by simp)).2.1
    simp [hasPrefix, List.isPrefixOf, Ne.symm this]

/-- The parts of a path behind a name. -/
theorem extract_name {host name rest : Str} (hh : '/' ∉ host) (hn : PnpmName name) {x : Str} {xs : List Str}
    (hs : splitChar '/' rest = x :: xs) (hf : ¬ IsFile (host ++ '/' :: (name ++ rest))) :
    extractPnpm false (host ++ '/' :: (name ++ rest)) =
      let nv := if xs.headD [] = [] then parseNameAtVersion (name ++ x) else (name ++ x, xs.headD [])
      some (if nv.2 = [] || !startsWithNumber nv.2 then some ([], []) else some (nv.1, (cut nv.2 g!"_").1)) := by
  have key : ∀ (n : Str), '/' ∉ n → splitChar '/' (n ++ rest) = (n ++ x) :: xs := by
    intro n hn
    induction n with
    | nil => simpa using hs
    | cons c n ih =>
      simp only [List.mem_cons, not_or] at hn
      rw [List.cons_append, splitChar, if_neg (Ne.symm hn.1), ih hn.2]
      rfl
  unfold extractPnpm
  rw [if_neg (by rw [isFile_iff]; exact hf), if_neg (by simp), split_host hh]
  rcases hn with h | ⟨scope, m, hs', hm, rfl⟩
  · rw [key name (part_no h (by simp))]
    simp only [not_at h, Bool.false_eq_true, if_false, Option.map_some]
  · rw [show ('@' :: scope ++ '/' :: m) ++ rest = ('@' :: scope) ++ '/' :: (m ++ rest) by simp,
      splitChar_append _ _ _ (by simp only [List.mem_cons, not_or]; exact ⟨by decide, part_no hs' (by simp)⟩),
      key m (part_no hm (by simp))]
    have hp : hasPrefix ('@' :: scope) g!"@" = true := (hasPrefix_iff _ _).2 ⟨scope, rfl⟩
    simp only [hp, if_true, Option.map_some]
    simp

/-- Simple paths are read as written. -/
theorem extract_path {path name version : Str} (h : PnpmSimplePath path name version) (hf : ¬ IsFile path) :
    extractPnpm false path = some (some (name, version)) := by
  cases h with
  | slash host name version peers hh hn hv hp =>
    rw [show host ++ '/' :: name ++ '/' :: version ++ peers = host ++ '/' :: (name ++ '/' :: (version ++ peers)) by simp] at hf ⊢
    obtain ⟨t, ht, hc, hns⟩ : ∃ t, (splitChar '/' (version ++ peers)).head? = some (version ++ t) ∧
        (cut (version ++ t) g!"_").1 = version ∧ True := by
      have hus : '_' ∉ version := version_no hv (by simp)
      rcases hp with rfl | ⟨r, rfl | rfl⟩
      · refine ⟨[], ?_, ?_, trivial⟩
        · rw [List.append_nil, splitChar_of_not_mem _ _ (version_no hv (by simp))]; rfl
        · rw [List.append_nil, cut_char_none _ _ hus]
      · have hsp : ∃ t, (splitChar '/' ('_' :: r)).head? = some ('_' :: t) := by
          rw [splitChar, if_neg (by decide)]
          cases splitChar '/' r with
          | nil => exact ⟨[], rfl⟩
          | cons p ps => exact ⟨p, rfl⟩
        obtain ⟨t, ht⟩ := hsp
        refine ⟨'_' :: t, ?_, ?_, trivial⟩
        · have key : ∀ n : Str, '/' ∉ n → (splitChar '/' (n ++ '_' :: r)).head? = some (n ++ '_' :: t) := by
            intro n hn
            induction n with
            | nil => exact ht
            | cons c n ih =>
              simp only [List.mem_cons, not_or] at hn
              rw [List.cons_append, splitChar, if_neg (Ne.symm hn.1)]
              have := ih hn.2
              cases hs : splitChar '/' (n ++ '_' :: r) with
              | nil => rw [hs] at this; cases this
              | cons p ps => rw [hs] at this; simp at this; simp [this]
          exact key _ (version_no hv (by simp))
        · rw [cut_char _ _ _ hus]
      · refine ⟨[], ?_, ?_, trivial⟩
        · rw [splitChar_append _ _ _ (version_no hv (by simp))]; simp
        · rw [List.append_nil, cut_char_none _ _ hus]
    rw [extract_name hh hn (x := []) (xs := splitChar '/' (version ++ peers)) (by simp [splitChar]) hf]
    have hd : (splitChar '/' (version ++ peers)).headD [] = version ++ t := by
      rw [List.headD_eq_head?_getD, ht]; rfl
    obtain ⟨⟨c, r, rfl, hdig⟩, _⟩ := hv
    have hsn : startsWithNumber (c :: r ++ t) = true := (startsWithNumber_iff _).2 ⟨c, r ++ t, rfl, hdig⟩
    have hne : c :: r ++ t ≠ [] := by simp
    simp only [hd, List.append_nil, if_neg hne, hsn, hc, hne, decide_false, Bool.not_true, Bool.or_self, Bool.false_eq_true,
      if_false]
  | «at» host name version peers hh hn hv hp hfl =>
    rw [show host ++ '/' :: name ++ '@' :: version ++ peers = host ++ '/' :: (name ++ '@' :: (version ++ peers)) by simp] at hf ⊢
    rw [extract_name hh hn (x := '@' :: (version ++ peers)) (xs := []) (splitChar_of_not_mem _ _ (by
      simp only [List.mem_cons, List.mem_append, not_or]
      exact ⟨by decide, version_no hv (by simp), flat_no_slash hfl⟩)) hf]
    simp only [List.headD_nil, if_true]
    rw [parseNameAtVersion_flat hn hv hp hfl]
    have hsn : startsWithNumber version = true := (startsWithNumber_iff _).2 hv.1
    simp [hsn, version_ne hv, cut_char_none _ _ (version_no hv (c := '_') (by simp))]

/-- Keys of version 9 are read as written. -/
theorem extract_key {key name version : Str} (h : PnpmKey9 key name version) (hf : ¬ IsFile key) :
    extractPnpm true key = some (some (name, version)) := by
  obtain ⟨hn, hl, rfl⟩ := h
  unfold extractPnpm
  rw [if_neg (by rw [isFile_iff]; exact hf), if_pos rfl]
  have ht : trimFunc (· == '\'') (name ++ '@' :: version) = name ++ '@' :: version := by
    unfold trimFunc
    have h1 : (name ++ '@' :: version).dropWhile (· == '\'') = name ++ '@' :: version := by
      rcases hn with h | ⟨scope, m, _, _, rfl⟩
      · cases name with
        | nil => exact absurd rfl h.1
        | cons c n =>
          have : c ≠ '\'' := (h.2 c (by simp)).2.2.2.2
          simp [this]
      · simp
    rw [h1]
    apply dropRight_all
    intro c hc
    rw [getLast?_append_ne _ _ (by simp)] at hc
    cases hv : version.getLast? with
    | none =>
      rw [List.getLast?_eq_none_iff] at hv
      subst hv; simp at hc; subst hc; decide
    | some d =>
      have : c = d := by rw [List.getLast?_cons, hv] at hc; simpa using hc.symm
      subst this
      simpa using hl c (by rw [hv]; rfl)
  rw [ht]
  rcases hn with h | ⟨scope, m, hs, hm, rfl⟩
  · have : cutPrefix (name ++ '@' :: version) g!"@" = (name ++ '@' :: version, false) := by
      unfold cutPrefix; rw [not_at h]; rfl
    simp only [this]
    rw [cut_char _ _ _ (part_no h (by simp))]
    simp
  · have : cutPrefix ('@' :: scope ++ '/' :: m ++ '@' :: version) g!"@" = (scope ++ '/' :: m ++ '@' :: version, true) :=
      by rw [show '@' :: scope ++ '/' :: m ++ '@' :: version = g!"@" ++ (scope ++ '/' :: m ++ '@' :: version) by simp,
        Pip.cutPrefix_append]
    simp only [this]
    rw [cut_char _ _ _ (by
      simp only [List.mem_append, List.mem_cons, not_or]
      exact ⟨part_no hs (by simp), by decide, part_no hm (by simp)⟩)]
    simp

theorem extract_read {nine : Bool} {key n v : Str} (h : PnpmRead nine PnpmSimplePath key n v) :
    extractPnpm nine key = some (some (n, v)) := by
  rcases h with ⟨h, rfl, rfl⟩ | ⟨hf, ⟨rfl, h⟩ | ⟨rfl, h⟩⟩
  · unfold extractPnpm; rw [if_pos ((isFile_iff _).2 h)]
  · exact extract_key h hf
  · exact extract_path h hf

theorem first_slash {s : Str} (h : '/' ∈ s) : ∃ a b, s = a ++ '/' :: b ∧ '/' ∉ a := by
  induction s with
  | nil => cases h
  | cons d s ih =>
    by_cases hd : d = '/'
    · exact ⟨[], s, by rw [hd]; rfl, by simp⟩
    · obtain ⟨a, b, rfl, ha⟩ := ih (by simpa [Ne.symm hd] using h)
      exact ⟨d :: a, b, rfl, by simp [ha, Ne.symm hd]⟩

theorem firstOf_iff {a b r : Str} : FirstOf a b r ↔ (if a ≠ [] then a else b) = r := by
  unfold FirstOf
  by_cases h : a = [] <;> simp [h, eq_comm]

end Osv.Pnpm
