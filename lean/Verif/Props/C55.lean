import Verif.Model.LockYarn
import Verif.Spec.Commit
import Verif.Lemmas.RegexMatch
import Verif.Lemmas.Url
import Verif.Lemmas.UrlHost
/-!
# C55: commit extraction from resolutions

The claim that a registry tarball never yields a commit fails for registries on `gitlab.com`, `github.com` and
`bitbucket.org`: the checksum of the tarball is taken for a commit (`C55_registry_counterexample`).
-/
namespace Osv
open Str Spec

namespace Commit

/-- The maximal run of word characters at the end of a text is unique. -/
theorem tail_unique {y y' : Str} {d d' : Char} {c c' : Str} (hd : isWord d = false) (hd' : isWord d' = false)
    (hc : ∀ x ∈ c, isWord x = true) (hc' : ∀ x ∈ c', isWord x = true) (e : y ++ d :: c = y' ++ d' :: c') :
    y = y' ∧ d = d' ∧ c = c' := by
  have key : ∀ (y : Str) (d : Char) (c : Str), isWord d = false → (∀ x ∈ c, isWord x = true) →
      dropRight isWord (y ++ d :: c) = y ++ [d] := by
    intro y d c hd hc
    rw [show y ++ d :: c = (y ++ [d]) ++ c by simp, dropRight_append _ _ _ (List.all_eq_true.2 hc), dropRight_all]
    intro x hx
    rw [getLast?_append_ne _ _ (by simp)] at hx
    simp at hx
    rw [← hx]; exact hd
  have h1 := key y d c hd hc
  have h2 := key y' d' c' hd' hc'
  rw [e, h2] at h1
  have h3 := List.append_inj' h1 rfl
  simp at h3
  obtain ⟨rfl, rfl⟩ := h3
  have := List.append_cancel_left e
  simp at this
  exact ⟨rfl, rfl, this⟩

theorem word1_eot {bol : Bool} {k k' : Caps} {x rest : Str} : Re.Matches (.cat [reWord1, .eot]) bol k x rest k' ↔
    CommitText x ∧ rest = [] ∧ k' = (1, x) :: k := by
  simp only [Re.cat, Re.matches_seq, reWord1, Re.matches_cap, Re.matches_plus_cls, Re.matches_eot]
  constructor
  · rintro ⟨y, z, k₁, rfl, ⟨_, ⟨h1, h2, rfl⟩, rfl⟩, rfl, rfl, rfl⟩
    rw [List.append_nil]
    exact ⟨⟨h1, h2⟩, rfl, rfl⟩
  · rintro ⟨⟨h1, h2⟩, rfl, rfl⟩
    exact ⟨x, [], _, by simp, ⟨_, ⟨h1, h2, rfl⟩, rfl⟩, rfl, rfl, rfl⟩

/-- An expression that ends in a separator, the commit and the end of the text. -/
theorem group_of_find {l : List Re} {p : Char → Bool} (hp : ∀ c, p c = true → isWord c = false) {s : Str} {f : Re.Found}
    (h : (Re.cat (l ++ [.cls p, reWord1, .eot])).find s = some f) :
    ∃ y d, s = y ++ d :: f.group 1 ∧ isWord d = false ∧ p d = true ∧ CommitText (f.group 1) := by
  obtain ⟨e, hm⟩ := Re.findFrom_sound _ _ _ _ h
  obtain ⟨y, z, k₁, e1, h1, h2⟩ := Re.matches_cat_append.1 hm
  obtain ⟨u, v, k₂, e2, h3, h4⟩ := Re.matches_cat_cons.1 h2
  obtain ⟨d, rfl, hd, rfl⟩ := Re.matches_cls.1 h3
  obtain ⟨hc, hrest, hk⟩ := word1_eot.1 h4
  have hg : f.group 1 = v := by unfold Re.Found.group; rw [hk]; rfl
  refine ⟨f.pre ++ y, d, ?_, hp d hd, hd, by rw [hg]; exact hc⟩
  rw [e, e1, e2, hrest, hg]
  simp

theorem matcher_tail {r : Re} (hr : r ∈ commitMatchers) {s : Str} {f : Re.Found} (h : r.find s = some f) :
    ∃ y d, s = y ++ d :: f.group 1 ∧ isWord d = false ∧ CommitText (f.group 1) := by
  simp only [commitMatchers, List.mem_cons, List.not_mem_nil, or_false] at hr
  have one : ∀ c : Char, isWord c = false → ∀ x : Char, (x == c) = true → isWord x = false := by
    intro c hc x hx; simp at hx; rw [hx]; exact hc
  rcases hr with rfl | rfl | rfl | rfl | rfl
  · obtain ⟨y, d, e, h1, _, h2⟩ := group_of_find (l := [.alt .bot (.cat [.plus .any, .ch '@']),
        .alt (.cat [.lit g!"git", .opt (.cat [.ch '+', .alt (.lit g!"ssh") (.lit g!"https")])]) (.lit g!"ssh"),
        .lit g!"://", .plus .any]) (one '#' (by decide)) h
    exact ⟨y, d, e, h1, h2⟩
  · obtain ⟨y, d, e, h1, _, h2⟩ := group_of_find (l := [.alt .bot (.cat [.plus .any, .ch '@']), .lit g!"https://",
        .plus .any, .lit g!".git"]) (one '#' (by decide)) h
    exact ⟨y, d, e, h1, h2⟩
  · obtain ⟨y, d, e, h1, _, h2⟩ := group_of_find (l := [.lit g!"https://codeload.github.com", reSegment, reSegment,
        .lit g!"/tar.gz"]) (one '/' (by decide)) h
    exact ⟨y, d, e, h1, h2⟩
  · obtain ⟨y, d, e, h1, _, h2⟩ := group_of_find (l := [.plus .any, .lit g!"#commit"]) (p := fun c => c == ':' || c == '=')
      (by intro c hc; simp at hc; rcases hc with rfl | rfl <;> decide) h
    exact ⟨y, d, e, h1, h2⟩
  · obtain ⟨y, d, e, h1, _, h2⟩ := group_of_find (l := [.bot,
        .alt (.lit g!"github") (.alt (.lit g!"gitlab") (.lit g!"bitbucket")), .ch ':', .plus .any])
      (one '#' (by decide)) h
    exact ⟨y, d, e, h1, h2⟩

theorem firstMatcher_none {ms : List Re} {s : Str} : firstMatcher ms s = none ↔ ∀ r ∈ ms, r.find s = none := by
  induction ms with
  | nil => simp [firstMatcher]
  | cons r ms ih =>
    unfold firstMatcher
    cases h : r.find s with
    | some f => simp [h]
    | none => simp [h, ih]

theorem firstMatcher_some {ms : List Re} {s c : Str} (h : firstMatcher ms s = some c) :
    ∃ r ∈ ms, ∃ f, r.find s = some f ∧ f.group 1 = c := by
  induction ms with
  | nil => cases h
  | cons r ms ih =>
    unfold firstMatcher at h
    cases hf : r.find s with
    | some f => rw [hf] at h; cases h; exact ⟨r, by simp, f, hf, rfl⟩
    | none =>
      rw [hf] at h
      obtain ⟨r', hr', h'⟩ := ih h
      exact ⟨r', by simp [hr'], h'⟩

/-- If the text ends in a separator and a commit, a matching expression can only find this commit. -/
theorem firstMatcher_eq {s y : Str} {d : Char} {c : Str} (e : s = y ++ d :: c) (hd : isWord d = false)
    (hc : ∀ x ∈ c, isWord x = true) {c' : Str} (h : firstMatcher commitMatchers s = some c') : c' = c := by
  obtain ⟨r, hr, f, hf, rfl⟩ := firstMatcher_some h
  obtain ⟨y', d', e', hd', hc'⟩ := matcher_tail hr hf
  exact (tail_unique hd' hd hc'.2 hc (e'.symm.trans e)).2.2

theorem isMatch_of {r : Re} {s pre x post : Str} {k : Caps} (e : s = pre ++ x ++ post)
    (h : Re.Matches r pre.isEmpty [] x post k) : r.find s ≠ none := by
  have := (Re.isMatch_iff r s).2 ⟨pre, x, post, k, e, h⟩
  unfold Re.isMatch at this
  intro hn
  rw [hn] at this
  cases this

theorem any_of {x : Str} (h : '\n' ∉ x) : ∀ c ∈ x, (c != '\n') = true := by
  intro c hc
  simp only [bne_iff_ne, ne_eq]
  rintro rfl
  exact h hc

theorem matches_at {bol : Bool} {k k' : Caps} {x rest : Str} :
    Re.Matches (.alt .bot (.cat [.plus .any, .ch '@'])) bol k x rest k' ↔
      ((bol = true ∧ x = []) ∨ ∃ u, u ≠ [] ∧ '\n' ∉ u ∧ x = u ++ ['@']) ∧ k' = k := by
  simp only [Re.matches_alt, Re.matches_bot, Re.cat, Re.matches_seq, Re.any, Re.matches_plus_cls, Re.matches_ch]
  constructor
  · rintro (⟨h1, h2, h3⟩ | ⟨u, v, _, rfl, ⟨h1, h2, rfl⟩, rfl, rfl⟩)
    · exact ⟨Or.inl ⟨h1, h2⟩, h3⟩
    · refine ⟨Or.inr ⟨u, h1, ?_, rfl⟩, rfl⟩
      intro hm; have := h2 _ hm; simp at this
  · rintro ⟨⟨h1, h2⟩ | ⟨u, h1, h2, rfl⟩, rfl⟩
    · exact Or.inl ⟨h1, h2, rfl⟩
    · exact Or.inr ⟨u, _, _, rfl, ⟨h1, any_of h2, rfl⟩, rfl, rfl⟩

theorem matches_sch {bol : Bool} {k k' : Caps} {x rest : Str} :
    Re.Matches (.alt (.cat [.lit g!"git", .opt (.cat [.ch '+', .alt (.lit g!"ssh") (.lit g!"https")])]) (.lit g!"ssh"))
      bol k x rest k' ↔
      (x = g!"git" ∨ x = g!"git+ssh" ∨ x = g!"git+https" ∨ x = g!"ssh") ∧ k' = k := by
  simp only [Re.matches_alt, Re.cat, Re.matches_seq, Re.matches_opt, Re.matches_ch, Re.matches_lit]
  constructor
  · rintro (⟨_, _, _, rfl, ⟨rfl, rfl⟩, ⟨_, _, _, rfl, ⟨rfl, rfl⟩, ⟨rfl, rfl⟩ | ⟨rfl, rfl⟩⟩ | ⟨rfl, rfl⟩⟩ | ⟨rfl, rfl⟩)
    · exact ⟨Or.inr (Or.inl rfl), rfl⟩
    · exact ⟨Or.inr (Or.inr (Or.inl rfl)), rfl⟩
    · exact ⟨Or.inl rfl, rfl⟩
    · exact ⟨Or.inr (Or.inr (Or.inr rfl)), rfl⟩
  · rintro ⟨rfl | rfl | rfl | rfl, rfl⟩
    · exact Or.inl ⟨g!"git", [], _, rfl, ⟨rfl, rfl⟩, Or.inr ⟨rfl, rfl⟩⟩
    · exact Or.inl ⟨g!"git", g!"+ssh", _, rfl, ⟨rfl, rfl⟩, Or.inl ⟨g!"+", g!"ssh", _, rfl, ⟨rfl, rfl⟩, Or.inl ⟨rfl, rfl⟩⟩⟩
    · exact Or.inl ⟨g!"git", g!"+https", _, rfl, ⟨rfl, rfl⟩, Or.inl ⟨g!"+", g!"https", _, rfl, ⟨rfl, rfl⟩, Or.inr ⟨rfl, rfl⟩⟩⟩
    · exact Or.inr ⟨rfl, rfl⟩

theorem matches_segment {bol : Bool} {k k' : Caps} {x rest : Str} : Re.Matches reSegment bol k x rest k' ↔
    ∃ o, o ≠ [] ∧ (∀ x ∈ o, isWord x = true ∨ x = '-' ∨ x = '.') ∧ x = '/' :: o ∧ k' = k := by
  simp only [reSegment, Re.cat, Re.matches_seq, Re.matches_ch, Re.matches_plus_cls, Bool.or_eq_true, beq_iff_eq]
  constructor
  · rintro ⟨_, o, _, rfl, ⟨rfl, rfl⟩, h1, h2, rfl⟩
    exact ⟨o, h1, fun x hx => (by simpa only [or_assoc] using h2 x hx), rfl, rfl⟩
  · rintro ⟨o, h1, h2, rfl, rfl⟩
    exact ⟨g!"/", o, _, rfl, ⟨rfl, rfl⟩, h1, fun x hx => (by simpa only [or_assoc] using h2 x hx), rfl⟩

theorem matches_host {bol : Bool} {k k' : Caps} {x rest : Str} :
    Re.Matches (.alt (.lit g!"github") (.alt (.lit g!"gitlab") (.lit g!"bitbucket"))) bol k x rest k' ↔
      (x = g!"github" ∨ x = g!"gitlab" ∨ x = g!"bitbucket") ∧ k' = k := by
  simp only [Re.matches_alt, Re.matches_lit, ← or_and_right]

/-- Every expression matches exactly the resolutions of its form. -/
theorem some_of_form {s c : Str} (h : CommitForm s c) (hc : CommitText c) (hn : '\n' ∉ s) :
    ∃ r ∈ commitMatchers, r.find s ≠ none := by
  cases h with
  | scheme pre sch body c hpre hsch hb =>
    refine ⟨reCommitScheme, by simp [commitMatchers], isMatch_of (pre := []) (post := []) (k := [(1, c)]) (by simp; rfl) ?_⟩
    simp only [List.mem_append, List.mem_cons, not_or] at hn
    refine Re.matches_cat_cons.2 ⟨pre, sch ++ g!"://" ++ body ++ '#' :: c, _, by simp, matches_at.2 ⟨?_, rfl⟩, ?_⟩
    · rcases hpre with rfl | ⟨u, hu, rfl⟩
      · exact Or.inl ⟨rfl, rfl⟩
      · exact Or.inr ⟨u, hu, by have := hn.1.1.1.1; simp at this; exact this, rfl⟩
    refine Re.matches_cat_cons.2 ⟨sch, g!"://" ++ body ++ '#' :: c, _, by simp, matches_sch.2 ⟨hsch, rfl⟩, ?_⟩
    refine Re.matches_cat_cons.2 ⟨g!"://", body ++ '#' :: c, _, by simp, Re.matches_lit.2 ⟨rfl, rfl⟩, ?_⟩
    refine Re.matches_cat_cons.2 ⟨body, '#' :: c, _, by simp, Re.matches_plus_cls.2 ⟨hb, any_of hn.1.2, rfl⟩, ?_⟩
    refine Re.matches_cat_cons.2 ⟨['#'], c, _, by simp, Re.matches_ch.2 ⟨rfl, rfl⟩, ?_⟩
    exact word1_eot.2 ⟨hc, rfl, rfl⟩
  | https pre body c hpre hb =>
    refine ⟨reCommitHttps, by simp [commitMatchers], isMatch_of (pre := []) (post := []) (k := [(1, c)]) (by simp; rfl) ?_⟩
    simp only [List.mem_append, List.mem_cons, not_or] at hn
    refine Re.matches_cat_cons.2 ⟨pre, g!"https://" ++ body ++ g!".git" ++ '#' :: c, _, by simp, matches_at.2 ⟨?_, rfl⟩, ?_⟩
    · rcases hpre with rfl | ⟨u, hu, rfl⟩
      · exact Or.inl ⟨rfl, rfl⟩
      · exact Or.inr ⟨u, hu, by have := hn.1.1.1.1; simp at this; exact this, rfl⟩
    refine Re.matches_cat_cons.2 ⟨g!"https://", body ++ g!".git" ++ '#' :: c, _, by simp, Re.matches_lit.2 ⟨rfl, rfl⟩, ?_⟩
    refine Re.matches_cat_cons.2 ⟨body, g!".git" ++ '#' :: c, _, by simp, Re.matches_plus_cls.2 ⟨hb, any_of hn.1.1.2, rfl⟩, ?_⟩
    refine Re.matches_cat_cons.2 ⟨g!".git", '#' :: c, _, by simp, Re.matches_lit.2 ⟨rfl, rfl⟩, ?_⟩
    refine Re.matches_cat_cons.2 ⟨['#'], c, _, by simp, Re.matches_ch.2 ⟨rfl, rfl⟩, ?_⟩
    exact word1_eot.2 ⟨hc, rfl, rfl⟩
  | codeload pre o r c ho ho' hr hr' =>
    refine ⟨reCommitCodeload, by simp [commitMatchers], isMatch_of (pre := pre) (post := [])
      (x := g!"https://codeload.github.com" ++ '/' :: o ++ '/' :: r ++ g!"/tar.gz" ++ '/' :: c) (k := [(1, c)]) (by simp) ?_⟩
    refine Re.matches_cat_cons.2 ⟨g!"https://codeload.github.com", '/' :: o ++ '/' :: r ++ g!"/tar.gz" ++ '/' :: c, _, by simp,
      Re.matches_lit.2 ⟨rfl, rfl⟩, ?_⟩
    refine Re.matches_cat_cons.2 ⟨'/' :: o, '/' :: r ++ g!"/tar.gz" ++ '/' :: c, _, by simp, matches_segment.2 ⟨o, ho, ho', rfl, rfl⟩, ?_⟩
    refine Re.matches_cat_cons.2 ⟨'/' :: r, g!"/tar.gz" ++ '/' :: c, _, by simp, matches_segment.2 ⟨r, hr, hr', rfl, rfl⟩, ?_⟩
    refine Re.matches_cat_cons.2 ⟨g!"/tar.gz", '/' :: c, _, by simp, Re.matches_lit.2 ⟨rfl, rfl⟩, ?_⟩
    refine Re.matches_cat_cons.2 ⟨['/'], c, _, by simp, Re.matches_ch.2 ⟨rfl, rfl⟩, ?_⟩
    exact word1_eot.2 ⟨hc, rfl, rfl⟩
  | fragment body d c hb hd =>
    refine ⟨reCommitFragment, by simp [commitMatchers], isMatch_of (pre := []) (post := []) (k := [(1, c)]) (by simp; rfl) ?_⟩
    simp only [List.mem_append, List.mem_cons, not_or] at hn
    refine Re.matches_cat_cons.2 ⟨body, g!"#commit" ++ d :: c, _, by simp, Re.matches_plus_cls.2 ⟨hb, any_of hn.1.1, rfl⟩, ?_⟩
    refine Re.matches_cat_cons.2 ⟨g!"#commit", d :: c, _, by simp, Re.matches_lit.2 ⟨rfl, rfl⟩, ?_⟩
    refine Re.matches_cat_cons.2 ⟨[d], c, _, by simp, Re.matches_cls.2 ⟨d, rfl, by simpa using hd, rfl⟩, ?_⟩
    exact word1_eot.2 ⟨hc, rfl, rfl⟩
  | shorthand host body c hh hb =>
    refine ⟨reCommitShorthand, by simp [commitMatchers], isMatch_of (pre := []) (post := []) (k := [(1, c)]) (by simp; rfl) ?_⟩
    simp only [List.mem_append, List.mem_cons, not_or] at hn
    refine Re.matches_cat_cons.2 ⟨[], host ++ ':' :: (body ++ '#' :: c), _, by simp, Re.matches_bot.2 ⟨rfl, rfl, rfl⟩, ?_⟩
    refine Re.matches_cat_cons.2 ⟨host, ':' :: (body ++ '#' :: c), _, by simp, matches_host.2 ⟨hh, rfl⟩, ?_⟩
    refine Re.matches_cat_cons.2 ⟨[':'], body ++ '#' :: c, _, by simp, Re.matches_ch.2 ⟨rfl, rfl⟩, ?_⟩
    refine Re.matches_cat_cons.2 ⟨body, '#' :: c, _, by simp, Re.matches_plus_cls.2 ⟨hb, any_of hn.2.2.1, rfl⟩, ?_⟩
    refine Re.matches_cat_cons.2 ⟨['#'], c, _, by simp, Re.matches_ch.2 ⟨rfl, rfl⟩, ?_⟩
    exact word1_eot.2 ⟨hc, rfl, rfl⟩

theorem at_prefix {pre x : Str} (h : (pre.isEmpty = true ∧ x = []) ∨ ∃ u, u ≠ [] ∧ '\n' ∉ u ∧ x = u ++ ['@']) :
    AtPrefix (pre ++ x) := by
  rcases h with ⟨h1, rfl⟩ | ⟨u, hu, _, rfl⟩
  · exact Or.inl (by simpa using h1)
  · exact Or.inr ⟨pre ++ u, by simp [hu], by simp⟩

theorem form_of_find {r : Re} (hr : r ∈ commitMatchers) {s : Str} {f : Re.Found} (h : r.find s = some f) :
    CommitForm s (f.group 1) ∧ CommitText (f.group 1) := by
  obtain ⟨e, hm⟩ := Re.findFrom_sound _ _ _ _ h
  have hg : ∀ {c : Str} {k : Caps}, f.caps = (1, c) :: k → f.group 1 = c := by
    intro c k hk; unfold Re.Found.group; rw [hk]; rfl
  simp only [commitMatchers, List.mem_cons, List.not_mem_nil, or_false] at hr
  rcases hr with rfl | rfl | rfl | rfl | rfl
  · obtain ⟨a, z1, _, e1, h1, hm⟩ := Re.matches_cat_cons.1 hm
    obtain ⟨ha, rfl⟩ := matches_at.1 h1
    obtain ⟨sch, z2, _, rfl, h2, hm⟩ := Re.matches_cat_cons.1 hm
    obtain ⟨hs, rfl⟩ := matches_sch.1 h2
    obtain ⟨_, z3, _, rfl, h3, hm⟩ := Re.matches_cat_cons.1 hm
    obtain ⟨rfl, rfl⟩ := Re.matches_lit.1 h3
    obtain ⟨body, z4, _, rfl, h4, hm⟩ := Re.matches_cat_cons.1 hm
    obtain ⟨hb, _, rfl⟩ := Re.matches_plus_cls.1 h4
    obtain ⟨_, c, _, rfl, h5, hm⟩ := Re.matches_cat_cons.1 hm
    obtain ⟨rfl, rfl⟩ := Re.matches_ch.1 h5
    obtain ⟨hc, hrest, hk⟩ := word1_eot.1 hm
    rw [hg hk]
    refine ⟨?_, hc⟩
    have := CommitForm.scheme (f.pre ++ a) sch body c (at_prefix (by simpa using ha)) hs hb
    rw [e, e1, hrest]
    simpa using this
  · obtain ⟨a, z1, _, e1, h1, hm⟩ := Re.matches_cat_cons.1 hm
    obtain ⟨ha, rfl⟩ := matches_at.1 h1
    obtain ⟨_, z2, _, rfl, h2, hm⟩ := Re.matches_cat_cons.1 hm
    obtain ⟨rfl, rfl⟩ := Re.matches_lit.1 h2
    obtain ⟨body, z3, _, rfl, h3, hm⟩ := Re.matches_cat_cons.1 hm
    obtain ⟨hb, _, rfl⟩ := Re.matches_plus_cls.1 h3
    obtain ⟨_, z4, _, rfl, h4, hm⟩ := Re.matches_cat_cons.1 hm
    obtain ⟨rfl, rfl⟩ := Re.matches_lit.1 h4
    obtain ⟨_, c, _, rfl, h5, hm⟩ := Re.matches_cat_cons.1 hm
    obtain ⟨rfl, rfl⟩ := Re.matches_ch.1 h5
    obtain ⟨hc, hrest, hk⟩ := word1_eot.1 hm
    rw [hg hk]
    refine ⟨?_, hc⟩
    have := CommitForm.https (f.pre ++ a) body c (at_prefix (by simpa using ha)) hb
    rw [e, e1, hrest]
    simpa using this
  · obtain ⟨_, z1, _, e1, h1, hm⟩ := Re.matches_cat_cons.1 hm
    obtain ⟨rfl, rfl⟩ := Re.matches_lit.1 h1
    obtain ⟨_, z2, _, rfl, h2, hm⟩ := Re.matches_cat_cons.1 hm
    obtain ⟨o, ho, ho', rfl, rfl⟩ := matches_segment.1 h2
    obtain ⟨_, z3, _, rfl, h3, hm⟩ := Re.matches_cat_cons.1 hm
    obtain ⟨r, hr, hr', rfl, rfl⟩ := matches_segment.1 h3
    obtain ⟨_, z4, _, rfl, h4, hm⟩ := Re.matches_cat_cons.1 hm
    obtain ⟨rfl, rfl⟩ := Re.matches_lit.1 h4
    obtain ⟨_, c, _, rfl, h5, hm⟩ := Re.matches_cat_cons.1 hm
    obtain ⟨rfl, rfl⟩ := Re.matches_ch.1 h5
    obtain ⟨hc, hrest, hk⟩ := word1_eot.1 hm
    rw [hg hk]
    refine ⟨?_, hc⟩
    have := CommitForm.codeload f.pre o r c ho ho' hr hr'
    rw [e, e1, hrest]
    simpa using this
  · obtain ⟨body, z1, _, e1, h1, hm⟩ := Re.matches_cat_cons.1 hm
    obtain ⟨hb, _, rfl⟩ := Re.matches_plus_cls.1 h1
    obtain ⟨_, z2, _, rfl, h2, hm⟩ := Re.matches_cat_cons.1 hm
    obtain ⟨rfl, rfl⟩ := Re.matches_lit.1 h2
    obtain ⟨_, c, _, rfl, h3, hm⟩ := Re.matches_cat_cons.1 hm
    obtain ⟨d, rfl, hd, rfl⟩ := Re.matches_cls.1 h3
    obtain ⟨hc, hrest, hk⟩ := word1_eot.1 hm
    rw [hg hk]
    refine ⟨?_, hc⟩
    have := CommitForm.fragment (f.pre ++ body) d c (by simp [hb]) (by simpa using hd)
    rw [e, e1, hrest]
    simpa using this
  · obtain ⟨_, z0, _, e1, h0, hm⟩ := Re.matches_cat_cons.1 hm
    obtain ⟨hbol, rfl, rfl⟩ := Re.matches_bot.1 h0
    obtain ⟨host, z1, _, rfl, h1, hm⟩ := Re.matches_cat_cons.1 hm
    obtain ⟨hh, rfl⟩ := matches_host.1 h1
    obtain ⟨_, z2, _, rfl, h2, hm⟩ := Re.matches_cat_cons.1 hm
    obtain ⟨rfl, rfl⟩ := Re.matches_ch.1 h2
    obtain ⟨body, z3, _, rfl, h3, hm⟩ := Re.matches_cat_cons.1 hm
    obtain ⟨hb, _, rfl⟩ := Re.matches_plus_cls.1 h3
    obtain ⟨_, c, _, rfl, h4, hm⟩ := Re.matches_cat_cons.1 hm
    obtain ⟨rfl, rfl⟩ := Re.matches_ch.1 h4
    obtain ⟨hc, hrest, hk⟩ := word1_eot.1 hm
    rw [hg hk]
    refine ⟨?_, hc⟩
    have := CommitForm.shorthand host body c hh hb
    have hp : f.pre = [] := by simpa using hbol
    rw [e, e1, hrest, hp]
    simpa using this

theorem form_tail {s c : Str} (h : CommitForm s c) : ∃ y d, s = y ++ d :: c ∧ isWord d = false := by
  cases h with
  | scheme pre sch body c => exact ⟨_, '#', rfl, by decide⟩
  | https pre body c => exact ⟨_, '#', rfl, by decide⟩
  | codeload pre o r c => exact ⟨_, '/', rfl, by decide⟩
  | fragment body d c hb hd => exact ⟨_, d, rfl, by rcases hd with rfl | rfl <;> decide⟩
  | shorthand host body c => exact ⟨host ++ ':' :: body, '#', by simp, by decide⟩

end Commit

/-- For a resolution of any of the git forms, the commit at its end is extracted. -/
theorem C55_forms (s c : Str) (h : CommitForm s c) (hc : CommitText c) (hn : '\n' ∉ s) : tryExtractCommit s = c := by
  unfold tryExtractCommit
  obtain ⟨r, hr, hf⟩ := Commit.some_of_form h hc hn
  obtain ⟨y, d, e, hd⟩ := Commit.form_tail h
  cases hm : firstMatcher commitMatchers s with
  | none => exact absurd (Commit.firstMatcher_none.1 hm r hr) hf
  | some c' => exact Commit.firstMatcher_eq e hd hc.2 hm

/-- Only resolutions of these forms, and URLs of the three git hosts, have a commit. -/
theorem C55_only (s : Str) (h : tryExtractCommit s ≠ []) :
    (CommitForm s (tryExtractCommit s) ∧ CommitText (tryExtractCommit s)) ∨
    ∃ u, Url.parse s = some u ∧ (u.host = g!"bitbucket.org" ∨ u.host = g!"github.com" ∨ u.host = g!"gitlab.com") := by
  unfold tryExtractCommit at h ⊢
  cases hm : firstMatcher commitMatchers s with
  | some c =>
    obtain ⟨r, hr, f, hf, rfl⟩ := Commit.firstMatcher_some hm
    exact Or.inl (Commit.form_of_find hr hf)
  | none =>
    rw [hm] at h
    dsimp only at h
    unfold commitOfUrl at h
    cases hu : Url.parse s with
    | none => rw [hu] at h; exact absurd rfl h
    | some u =>
      rw [hu] at h
      dsimp only at h
      refine Or.inr ⟨u, rfl, ?_⟩
      by_cases hh : gitRepoHosts.contains u.host = true
      · simpa [gitRepoHosts] using hh
      · rw [if_neg hh] at h
        exact absurd rfl h

/-- The commit after `#` of a URL of a git host is extracted. -/
theorem C55_host_fragment (host path c : Str) (hh : host = g!"bitbucket.org" ∨ host = g!"github.com" ∨ host = g!"gitlab.com")
    (hp : Url.PlainPath path) (hc : CommitText c) :
    tryExtractCommit (g!"https://" ++ host ++ '/' :: path ++ '#' :: c) = c := by
  unfold tryExtractCommit
  cases hm : firstMatcher commitMatchers (g!"https://" ++ host ++ '/' :: path ++ '#' :: c) with
  | some c' => exact Commit.firstMatcher_eq rfl (by decide) hc.2 hm
  | none =>
    dsimp only
    have hph : Url.PlainHost host := by
      rcases hh with rfl | rfl | rfl <;> exact ⟨by decide, by decide, by decide, by decide⟩
    have hctl : Url.hasCTL host = false := by rcases hh with rfl | rfl | rfl <;> decide
    have := Url.parse_plain (query := none) hph hctl hp (by simp)
      (fun hm : '%' ∈ c => absurd (hc.2 _ hm) (by decide))
    simp only [Option.map_none, Option.getD_none, List.append_nil] at this
    unfold commitOfUrl
    rw [this]
    dsimp only
    rw [if_pos (by rcases hh with rfl | rfl | rfl <;> decide)]
    have hq : Url.query ⟨host, [], c⟩ = [] := by simp [Url.query, splitChar, Url.queryPair]
    rw [hq]
    rfl

/-- The `ref` of the query of a URL of a git host is extracted. -/
theorem C55_host_ref (host path c : Str) (hh : host = g!"bitbucket.org" ∨ host = g!"github.com" ∨ host = g!"gitlab.com")
    (hp : Url.PlainPath path) (hc : CommitText c) :
    tryExtractCommit (g!"https://" ++ host ++ '/' :: path ++ g!"?ref=" ++ c ++ ['#']) = c := by
  have hn : ∀ (p : Char → Bool), (∀ x, isWord x = true → p x = false) → ∀ x ∈ c, p x = false := fun p h x hx => h x (hc.2 x hx)
  unfold tryExtractCommit
  cases hm : firstMatcher commitMatchers (g!"https://" ++ host ++ '/' :: path ++ g!"?ref=" ++ c ++ ['#']) with
  | some c' =>
    exfalso
    obtain ⟨r, hr, f, hf, rfl⟩ := Commit.firstMatcher_some hm
    obtain ⟨y, d, e, _, h2⟩ := Commit.matcher_tail hr hf
    have h3 := congrArg List.getLast? e
    rw [getLast?_append_ne _ _ (by simp), getLast?_append_ne _ _ (by simp),
      show d :: f.group 1 = [d] ++ f.group 1 from rfl, getLast?_append_ne _ _ h2.1] at h3
    have h4 := h2.2 '#' (List.mem_of_getLast? h3.symm)
    exact absurd h4 (by decide)
  | none =>
    dsimp only
    have hph : Url.PlainHost host := by
      rcases hh with rfl | rfl | rfl <;> exact ⟨by decide, by decide, by decide, by decide⟩
    have hctl : Url.hasCTL host = false := by rcases hh with rfl | rfl | rfl <;> decide
    have nmem : ∀ x : Char, isWord x = false → x ∉ c := fun x hx hm => by
      have := hc.2 x hm; rw [hx] at this; cases this
    have hcc : Url.hasCTL c = false := by
      unfold Url.hasCTL
      rw [List.any_eq_false]
      intro x hx
      have := hc.2 x hx
      intro hlt
      simp [isWord, Char.le_def, UInt32.le_iff_toNat_le] at hlt this
      have e : x.val.toNat = x.toNat := rfl
      rcases this with ((h | h) | h) | h
      · omega
      · omega
      · omega
      · subst h; revert hlt; decide
    have := Url.parse_plain (query := some (g!"ref=" ++ c)) (frag := []) hph hctl hp (by
      intro q hq
      cases hq
      refine ⟨by simp, ?_, ?_⟩
      · have := nmem '#' (by decide); simp [this]
      · rw [Url.hasCTL_append, hcc]; decide) (by simp)
    simp only [Option.map_some, Option.getD_some] at this
    have e : g!"https://" ++ host ++ '/' :: path ++ g!"?ref=" ++ c ++ ['#'] =
      g!"https://" ++ host ++ '/' :: path ++ '?' :: (g!"ref=" ++ c) ++ ['#'] := by simp
    unfold commitOfUrl
    rw [e, this]
    dsimp only
    rw [if_pos (by rcases hh with rfl | rfl | rfl <;> decide)]
    have hq : Url.query ⟨host, g!"ref=" ++ c, []⟩ = [(g!"ref", c)] := by
      unfold Url.query
      dsimp only
      have na := nmem '&' (by decide)
      rw [splitChar_of_not_mem _ _ (by simp [na])]
      have ns := nmem ';' (by decide)
      have hs : contains (g!"ref=" ++ c) g!";" = false := by
        rw [← Bool.not_eq_true, contains_iff]
        rintro ⟨a, b, hab⟩
        have : ';' ∈ g!"ref=" ++ c := by rw [hab]; simp
        rcases List.mem_append.1 this with h | h
        · exact absurd h (by decide)
        · exact ns h
      have hp' : Url.queryPair (g!"ref=" ++ c) = some (g!"ref", c) := by
        unfold Url.queryPair
        rw [hs, if_neg (by simp), show g!"ref=" ++ c = g!"ref" ++ '=' :: c from rfl, cut_char _ _ _ (by decide)]
        dsimp only
        rw [Url.unescape_plain true g!"ref" (by decide) (by decide),
          Url.unescape_plain true c (nmem '%' (by decide)) (fun _ => nmem '+' (by decide))]
      rw [List.filterMap_cons_some hp', List.filterMap_nil]
    rw [hq]
    rfl

/-- The full claim: the tarball of a registry never yields a commit. -/
def C55_registry_full : Prop := ∀ s host, RegistryTarball s host → tryExtractCommit s = []

/-- It holds for every registry that is not on one of the git hosts: missing are the hosts `bitbucket.org`, `github.com`
and `gitlab.com`, and the archive host `codeload.github.com`. -/
theorem C55_registry_partial (s host : Str) (h : RegistryTarball s host)
    (hh : host ≠ g!"bitbucket.org" ∧ host ≠ g!"github.com" ∧ host ≠ g!"gitlab.com" ∧ host ≠ g!"codeload.github.com") :
    tryExtractCommit s = [] := by
  obtain ⟨path, sum, hne, hhost, hph, hpn, hps, hsum, rfl⟩ := h
  have nh : ∀ x : Char, (x = '/' ∨ x = '?' ∨ x = '#' ∨ x = '@' ∨ x = ':' ∨ x = '\n') → x ∉ host := by
    intro x hx hm
    obtain ⟨h1, h2, h3, h4, h5, h6⟩ := hhost x hm
    rcases hx with h | h | h | h | h | h <;> contradiction
  have hsum' : '/' ∉ sum ∧ ':' ∉ sum := by
    rcases hsum with rfl | ⟨c, rfl, hc⟩
    · simp
    · constructor
      · simp only [List.mem_cons, not_or]
        exact ⟨by decide, fun hm => absurd (hc.2 _ hm) (by decide)⟩
      · simp only [List.mem_cons, not_or]
        exact ⟨by decide, fun hm => absurd (hc.2 _ hm) (by decide)⟩
  -- `://` occurs only after the scheme
  have once : ∀ a b : Str, g!"https://" ++ host ++ '/' :: path ++ g!".tgz" ++ sum = a ++ g!"://" ++ b → a = g!"https" := by
    intro a b e
    -- the part after the scheme has no `://`
    have rest_no : ∀ x y : Str, host ++ '/' :: path ++ g!".tgz" ++ sum ≠ x ++ g!"://" ++ y := by
      intro x y e
      have h1 : ':' ∉ host ++ ['/'] := by
        have := nh ':' (by simp)
        simp [this]
      obtain ⟨x1, rfl⟩ := Url.prefix_of_split (c := ':') (a := host ++ ['/']) (b := path ++ g!".tgz" ++ sum) (x := x)
        (y := g!"//" ++ y) h1 (by simpa using e)
      have e1 : path ++ (g!".tgz" ++ sum) = x1 ++ (g!"://" ++ y) := by
        have : host ++ ['/'] ++ (path ++ (g!".tgz" ++ sum)) = host ++ ['/'] ++ (x1 ++ (g!"://" ++ y)) := by simpa using e
        exact List.append_cancel_left this
      have h2 : ':' ∉ g!".tgz" ++ sum := by simp [hsum'.2]
      rcases List.append_eq_append_iff.1 e1 with ⟨t, h3, h4⟩ | ⟨t, h3, h4⟩
      · apply h2
        rw [h4]; simp
      · -- the separator starts in the path
        have h5 : '/' ∉ g!".tgz" ++ sum := by simp [hsum'.1]
        match t, h4, h3 with
        | [], h4, h3 => simp at h4
        | [c1], h4, h3 => simp at h4
        | [c1, c2], h4, h3 => simp at h4
        | c1 :: c2 :: c3 :: t, h4, h3 =>
          simp at h4
          apply hps x1 t
          rw [h3, ← h4.1, ← h4.2.1, ← h4.2.2.1]
          simp
    have e' : g!"https" ++ (g!"://" ++ (host ++ '/' :: path ++ g!".tgz" ++ sum)) = a ++ (g!"://" ++ b) := by simpa using e
    rcases List.append_eq_append_iff.1 e' with ⟨t, h3, h4⟩ | ⟨t, h3, h4⟩
    · match t, h4, h3 with
      | [], h4, h3 => simpa using h3
      | [c1], h4, h3 => simp at h4
      | [c1, c2], h4, h3 => simp at h4
      | c1 :: c2 :: c3 :: t, h4, h3 =>
        simp at h4
        exact absurd (by simpa using h4.2.2.2) (rest_no t b)
    · match t, h4, h3 with
      | [], h4, h3 => simpa using h3.symm
      | c1 :: t, h4, h3 =>
        simp at h4
        have : ':' ∈ g!"https" := by rw [h3, ← h4.1]; simp
        exact absurd this (by decide)
  apply Classical.byContradiction
  intro hne'
  rcases C55_only _ hne' with ⟨hform, htext⟩ | ⟨u, hu, hhost'⟩
  · revert hform htext
    generalize tryExtractCommit _ = c
    generalize hs : g!"https://" ++ host ++ '/' :: path ++ g!".tgz" ++ sum = s at once
    intro hform htext
    have nohash : ∀ y t : Str, s = y ++ '#' :: t → sum = '#' :: t ∧ y = g!"https://" ++ host ++ '/' :: path ++ g!".tgz" := by
      intro y t e
      have hh' := nh '#' (by simp)
      have h1 : '#' ∉ g!"https://" ++ host ++ '/' :: path ++ g!".tgz" := by simp [hh', hph]
      rw [← hs] at e
      obtain ⟨w, rfl⟩ := Url.prefix_of_split h1 e
      have e2 : sum = w ++ '#' :: t := by
        rw [List.append_assoc _ w] at e
        exact List.append_cancel_left e
      rcases hsum with h | ⟨c', h, hc'⟩
      · rw [h] at e2; simp at e2
      · rw [h] at e2
        cases w with
        | nil => simp at e2; exact ⟨by rw [h, e2], by simp⟩
        | cons d w =>
          simp at e2
          exact absurd (hc'.2 '#' (by rw [e2.2]; simp)) (by decide)
    cases hform with
    | scheme pre sch body c hpre hsch hb =>
      have h1 := once (pre ++ sch) (body ++ '#' :: c) (by simp)
      have h2 := congrArg List.reverse h1
      rcases hsch with rfl | rfl | rfl | rfl <;> simp at h2
    | https pre body c hpre hb =>
      obtain ⟨_, h1⟩ := nohash _ _ rfl
      have h2 := congrArg List.reverse h1
      simp at h2
    | codeload pre o r c ho ho' hr hr' =>
      have h1 := once (pre ++ g!"https") (g!"codeload.github.com" ++ '/' :: o ++ '/' :: r ++ g!"/tar.gz" ++ '/' :: c) (by simp)
      have h2 : pre = [] := by
        have := congrArg List.length h1
        simp at this
        exact this
      subst h2
      have h3 : host ++ '/' :: (path ++ g!".tgz" ++ sum) = g!"codeload.github.com" ++ '/' :: (o ++ '/' :: r ++ g!"/tar.gz" ++ '/' :: c) := by
        have : g!"https://" ++ (host ++ '/' :: (path ++ g!".tgz" ++ sum)) =
          g!"https://" ++ (g!"codeload.github.com" ++ '/' :: (o ++ '/' :: r ++ g!"/tar.gz" ++ '/' :: c)) := by simpa using hs
        exact List.append_cancel_left this
      have h4 := cut?_char '/' host (path ++ g!".tgz" ++ sum) (nh '/' (by simp))
      rw [h3, cut?_char '/' g!"codeload.github.com" _ (by decide)] at h4
      exact hh.2.2.2 (Prod.mk.inj (Option.some.inj h4)).1.symm
    | fragment body d c hb hd =>
      obtain ⟨h1, _⟩ := nohash body (g!"commit" ++ d :: c) (by simp)
      rcases hsum with h | ⟨c', h, hc'⟩
      · rw [h] at h1; simp at h1
      · rw [h] at h1
        simp at h1
        have := hc'.2 d (by rw [h1]; simp)
        rcases hd with rfl | rfl <;> exact absurd this (by decide)
    | shorthand hst body c hh' hb =>
      rcases hh' with rfl | rfl | rfl <;> simp at hs
  · have hph' : Url.PlainHost host :=
      ⟨nh '/' (by simp), nh '?' (by simp), nh '#' (by simp), nh '@' (by simp)⟩
    have := Url.parse_host (rest := path ++ g!".tgz" ++ sum) hph' (by simpa using hu)
    rw [this] at hhost'
    rcases hhost' with h | h | h
    · exact hh.1 h
    · exact hh.2.1 h
    · exact hh.2.2.1 h

/-- A tarball of the package registry of `gitlab.com` yields its checksum as commit. -/
theorem C55_registry_counterexample : ¬ C55_registry_full := by
  intro h
  have h1 : tryExtractCommit g!"https://gitlab.com/api/v4/packages/npm/foo/-/foo-1.0.0.tgz#a1b2" = g!"a1b2" := by
    have hp : Url.PlainPath g!"api/v4/packages/npm/foo/-/foo-1.0.0.tgz" := ⟨by decide, by decide, by decide, by decide⟩
    have := C55_host_fragment g!"gitlab.com" g!"api/v4/packages/npm/foo/-/foo-1.0.0.tgz" g!"a1b2" (Or.inr (Or.inr rfl)) hp ⟨by decide, by decide⟩
    simpa using this
  have h2 := h g!"https://gitlab.com/api/v4/packages/npm/foo/-/foo-1.0.0.tgz#a1b2" g!"gitlab.com"
    ⟨g!"api/v4/packages/npm/foo/-/foo-1.0.0", g!"#a1b2", by decide, by decide, by decide, by decide, ?_,
      Or.inr ⟨g!"a1b2", rfl, by decide, by decide⟩, rfl⟩
  · rw [h1] at h2
    cases h2
  · intro a b e
    have : ':' ∈ g!"api/v4/packages/npm/foo/-/foo-1.0.0" := by rw [e]; simp
    exact absurd this (by decide)

/-- Resolutions of each form. -/
example : CommitForm g!"git+ssh://git@github.com/foo/bar.git#abc123" g!"abc123" ∧
    CommitForm g!"foo@https://github.com/foo/bar.git#abc123" g!"abc123" ∧
    CommitForm g!"https://codeload.github.com/foo/bar/tar.gz/abc123" g!"abc123" ∧
    CommitForm g!"foo@https://github.com/foo/bar.git#commit=abc123" g!"abc123" ∧
    CommitForm g!"github:foo/bar#abc123" g!"abc123" :=
  ⟨.scheme [] g!"git+ssh" g!"git@github.com/foo/bar.git" _ (Or.inl rfl) (Or.inr (Or.inl rfl)) (by decide),
   .https g!"foo@" g!"github.com/foo/bar" _ (Or.inr ⟨g!"foo", by decide, rfl⟩) (by decide),
   .codeload [] g!"foo" g!"bar" _ (by decide) (by decide) (by decide) (by decide),
   .fragment g!"foo@https://github.com/foo/bar.git" '=' _ (by decide) (Or.inr rfl),
   .shorthand g!"github" g!"foo/bar" _ (Or.inl rfl) (by decide)⟩

/-- A tarball of the public registry, as in `C55_registry_partial`. -/
example : RegistryTarball g!"https://registry.yarnpkg.com/foo/-/foo-1.0.0.tgz#a1b2" g!"registry.yarnpkg.com" := by
  refine ⟨g!"foo/-/foo-1.0.0", g!"#a1b2", by decide, by decide, by decide, by decide, ?_,
    Or.inr ⟨g!"a1b2", rfl, by decide, by decide⟩, rfl⟩
  intro a b e
  have : ':' ∈ g!"foo/-/foo-1.0.0" := by rw [e]; simp
  exact absurd this (by decide)

/-- A text without `#` and without two slashes in a row, such as a version or an alias, has no commit. -/
theorem C55_plain (s : Str) (hh : '#' ∉ s) (hs : ∀ a b, s ≠ a ++ g!"//" ++ b) : tryExtractCommit s = [] := by
  by_cases hc : tryExtractCommit s = []
  · exact hc
  exfalso
  rcases C55_only s hc with ⟨hform, _⟩ | ⟨u, hu, hhost⟩
  · generalize tryExtractCommit s = c at hform
    cases hform with
    | scheme => simp at hh
    | https => simp at hh
    | codeload pre o r c =>
      exact hs (pre ++ g!"https:") (g!"codeload.github.com" ++ '/' :: o ++ '/' :: r ++ g!"/tar.gz" ++ '/' :: c) (by simp)
    | fragment => simp at hh
    | shorthand => simp at hh
  · obtain ⟨a, b, e⟩ := Url.parse_host_slashes hu (by rcases hhost with h | h | h <;> rw [h] <;> decide)
    exact hs a b e

example : tryExtractCommit g!"npm:@scope/foo@1.2.3-beta+4" = [] := by
  refine C55_plain _ (by decide) ?_
  intro a b e
  have := (contains_iff g!"npm:@scope/foo@1.2.3-beta+4" g!"//").2 ⟨a, b, e⟩
  revert this; decide +kernel

end Osv
