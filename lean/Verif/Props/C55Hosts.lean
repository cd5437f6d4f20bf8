import Verif.Spec.GitUrl
import Verif.Lemmas.ApiUrl
import Verif.Props.C55
/-! # C55: commits in the URLs of git hosts -/
namespace Osv
open Str Spec

namespace Url

theorem hexDigit_unhex {c : Char} {n : Nat} (h : HexDigit c n) : unhex c = some n := by
  have hl : n < 16 := by
    rcases h with h | h <;> simpa using (List.getElem?_eq_some_iff.1 h).1
  exact unhex_hex ⟨n, hl⟩ c h

theorem hexDigit_char {c : Char} {n : Nat} (h : HexDigit c n) : c ∈ g!"0123456789abcdefABCDEF" := by
  have sub : ∀ s : Str, (∀ x ∈ s, x ∈ g!"0123456789abcdefABCDEF") → s[n]? = some c → c ∈ g!"0123456789abcdefABCDEF" := by
    intro s hs h
    exact hs c (List.mem_of_getElem? h)
  rcases h with h | h
  · exact sub _ (by decide) h
  · exact sub _ (by decide) h

theorem shown_unescape {plus : Bool} {ok : Char → Prop} {s t : Str} (h : Shown plus ok s t) : unescape plus t = some s := by
  induction h with
  | nil => simp [unescape]
  | @char c s t _ h2 h3 _ ih =>
    unfold unescape
    split
    · rename_i e; simp at e
    · rename_i e; simp at e; exact absurd e.1 h2
    · rename_i e
      simp at e
      obtain ⟨rfl, rfl⟩ := e
      rw [if_neg h2, ih]
      have : (plus && c == '+') = false := by
        cases plus with
        | false => rfl
        | true => simpa using h3 rfl
      rw [this]
      rfl
  | @code c x y s t h1 h2 h3 _ ih =>
    rw [unescape, hexDigit_unhex h2, hexDigit_unhex h3, ih]
    have : 16 * (c.toNat / 16) + c.toNat % 16 = c.toNat := by omega
    dsimp only
    rw [this]
    simp
  | @space s t h _ ih =>
    subst h
    unfold unescape
    split
    · rename_i e; simp at e
    · rename_i e; simp at e
    · rename_i e
      simp at e
      obtain ⟨rfl, rfl⟩ := e
      rw [if_neg (by decide), ih]
      rfl

/-- What is true of plain characters, `%`, `+` and hexadecimal digits is true of the whole text. -/
theorem shown_chars {plus : Bool} {ok : Char → Prop} {s t : Str} (h : Shown plus ok s t) :
    ∀ c ∈ t, ok c ∨ c ∈ g!"%+0123456789abcdefABCDEF" := by
  have hx : ∀ {c n}, HexDigit c n → c ∈ g!"%+0123456789abcdefABCDEF" := by
    intro c n h
    have := hexDigit_char h
    exact List.mem_cons_of_mem _ (List.mem_cons_of_mem _ this)
  induction h with
  | nil => simp
  | char h1 _ _ _ ih =>
    intro c hc
    rcases List.mem_cons.1 hc with rfl | hc
    · exact Or.inl h1
    · exact ih c hc
  | code _ h2 h3 _ ih =>
    intro c hc
    rcases List.mem_cons.1 hc with rfl | hc
    · exact Or.inr (by decide)
    rcases List.mem_cons.1 hc with rfl | hc
    · exact Or.inr (hx h2)
    rcases List.mem_cons.1 hc with rfl | hc
    · exact Or.inr (hx h3)
    · exact ih c hc
  | space _ _ ih =>
    intro c hc
    rcases List.mem_cons.1 hc with rfl | hc
    · exact Or.inr (by decide)
    · exact ih c hc

theorem coded_chars_ok : ∀ c ∈ g!"%+0123456789abcdefABCDEF", 32 ≤ c.toNat ∧ c.toNat ≠ 127 ∧ c ∉ g!"/?#&;=@" := by decide

theorem shown_visible {plus : Bool} {no s t : Str} (hno : ∀ c ∈ no, c ∈ g!"/?#&;=@") (h : Shown plus (Visible no) s t) :
    ∀ c ∈ t, 32 ≤ c.toNat ∧ c.toNat ≠ 127 ∧ c ∉ no := by
  intro c hc
  rcases shown_chars h c hc with h1 | h1
  · exact h1
  · obtain ⟨a, b, d⟩ := coded_chars_ok c h1
    exact ⟨a, b, fun hm => d (hno c hm)⟩

theorem pair_read {p : Str × Str} {t : Str} (h : PairText p t) :
    queryPair t = some p ∧ '&' ∉ t ∧ '#' ∉ t ∧ ∀ c ∈ t, 32 ≤ c.toNat ∧ c.toNat ≠ 127 := by
  obtain ⟨a, b, ha, hb, rfl⟩ := h
  have va := shown_visible (by decide) ha
  have vb := shown_visible (by decide) hb
  have no : ∀ x ∈ g!"&;#", x ∉ a ++ '=' :: b := by
    intro x hx hm
    rcases List.mem_append.1 hm with hm | hm
    · exact (va x hm).2.2 ((by decide : ∀ x ∈ g!"&;#", x ∈ g!"&;#=") x hx)
    · rcases List.mem_cons.1 hm with rfl | hm
      · exact absurd hx (by decide)
      · exact (vb x hm).2.2 hx
  refine ⟨?_, no _ (by decide), no _ (by decide), ?_⟩
  · unfold queryPair
    have h1 : (contains (a ++ '=' :: b) g!";" || (a ++ '=' :: b).isEmpty) = false := by
      rw [Bool.or_eq_false_iff]
      refine ⟨?_, by simp⟩
      rw [Bool.eq_false_iff, ne_eq, contains_iff]
      rintro ⟨x, y, e⟩
      exact no ';' (by decide) (by rw [e]; simp)
    rw [h1, if_neg (by simp), cut_char _ _ _ (fun hm => (va _ hm).2.2 (by decide))]
    dsimp only
    rw [shown_unescape ha, shown_unescape hb]
  · intro c hc
    rcases List.mem_append.1 hc with hm | hm
    · exact ⟨(va c hm).1, (va c hm).2.1⟩
    · rcases List.mem_cons.1 hm with rfl | hm
      · decide
      · exact ⟨(vb c hm).1, (vb c hm).2.1⟩

theorem splitChar_cons (c : Char) (a b : Str) (h : c ∉ a) : splitChar c (a ++ c :: b) = a :: splitChar c b := by
  induction a with
  | nil => simp [splitChar]
  | cons d a ih =>
    simp only [List.mem_cons, not_or] at h
    rw [List.cons_append, splitChar, if_neg (by intro e; exact h.1 e.symm), ih h.2]

theorem pairs_read {ps : List (Str × Str)} {t : Str} (h : PairsText ps t) :
    (splitChar '&' t).filterMap queryPair = ps ∧ t ≠ [] ∧ '#' ∉ t ∧ ∀ c ∈ t, 32 ≤ c.toNat ∧ c.toNat ≠ 127 := by
  have ne : ∀ {p t}, PairText p t → t ≠ [] := by
    rintro p t ⟨a, b, _, _, rfl⟩
    simp
  induction h with
  | one h =>
    obtain ⟨h1, h2, h3, h4⟩ := pair_read h
    refine ⟨?_, ne h, h3, h4⟩
    rw [splitChar_of_not_mem _ _ h2, List.filterMap_cons_some h1]
    rfl
  | cons h _ ih =>
    obtain ⟨h1, h2, h3, h4⟩ := pair_read h
    obtain ⟨i1, _, i3, i4⟩ := ih
    refine ⟨?_, by simp, by simp [h3, i3], ?_⟩
    · rw [splitChar_cons _ _ _ h2, List.filterMap_cons_some h1, i1]
    · intro c hc
      rcases List.mem_append.1 hc with hm | hm
      · exact h4 c hm
      · rcases List.mem_cons.1 hm with rfl | hm
        · decide
        · exact i4 c hm

theorem cutQuery_some {a q : Str} (ha : '?' ∉ a) (hq : q ≠ []) : cutQuery (a ++ '?' :: q) = (a, q) := by
  unfold cutQuery
  rw [if_neg, cut_char _ _ _ ha]
  intro h
  simp only [Bool.and_eq_true, beq_iff_eq] at h
  obtain ⟨t, ht⟩ := (hasSuffix_iff _ _).1 h.1
  have h1 := h.2
  rw [List.filter_append, List.filter_cons_of_pos (by simp)] at h1
  have h2 : q.filter (· == '?') = [] := by
    simp only [List.length_append, List.length_cons] at h1
    apply List.length_eq_zero_iff.1
    omega
  have h3 : q.getLast? = some '?' := by
    have := congrArg List.getLast? ht
    rw [getLast?_append_ne _ _ (by simp), getLast?_append_ne _ _ (by simp)] at this
    rw [show '?' :: q = ['?'] ++ q from rfl, getLast?_append_ne _ _ hq] at this
    exact this
  have h4 : '?' ∈ q := List.mem_of_getLast? h3
  rw [List.filter_eq_nil_iff] at h2
  exact h2 _ h4 (by simp)

theorem user_read {user host : Str} (h : UserPart user) (hh : '@' ∉ host) :
    parseAuthority (user ++ host) = some host ∧ ∀ c ∈ user, 32 ≤ c.toNat ∧ c.toNat ≠ 127 ∧ c ∉ g!"/?#" := by
  rcases h with rfl | ⟨s, u, hu, rfl⟩
  · refine ⟨?_, by simp⟩
    unfold parseAuthority
    rw [List.nil_append, cutLast?_none _ _ hh]
  · have hc : ∀ c ∈ u, c ∈ g!"%abcdefghijklmnopqrstuvwxyzABCDEFGHIJKLMNOPQRSTUVWXYZ0123456789-._:~!$&'()*+,;=@" := by
      intro c hc
      rcases shown_chars hu c hc with h | h
      · exact List.mem_cons_of_mem _ h
      · have : ∀ c ∈ g!"%+0123456789abcdefABCDEF",
            c ∈ g!"%abcdefghijklmnopqrstuvwxyzABCDEFGHIJKLMNOPQRSTUVWXYZ0123456789-._:~!$&'()*+,;=@" := by decide +kernel
        exact this c h
    have ok : ∀ c ∈ g!"%abcdefghijklmnopqrstuvwxyzABCDEFGHIJKLMNOPQRSTUVWXYZ0123456789-._:~!$&'()*+,;=@",
        (32 ≤ c.toNat ∧ c.toNat ≠ 127 ∧ c ∉ g!"/?#") ∧ (isLetter c || isDigit c || g!"-._:~!$&'()*+,;=%@".contains c) = true := by
      decide +kernel
    constructor
    · unfold parseAuthority
      rw [show u ++ g!"@" ++ host = u ++ '@' :: host by simp, cutLast?_append _ _ _ hh]
      dsimp only
      have hv : validUserinfo u = true := by
        unfold validUserinfo
        rw [List.all_eq_true]
        exact fun c hx => (ok c (hc c hx)).2
      rw [hv, shown_unescape hu]
      rfl
    · intro c hx
      rcases List.mem_append.1 hx with hx | hx
      · exact (ok c (hc c hx)).1
      · rw [List.mem_singleton.1 hx]; decide

theorem url_read {scheme user host path qt frag fragment : Str} {pairs : List (Str × Str)} (hs : SchemeText scheme)
    (u2 : ∀ c ∈ user, 32 ≤ c.toNat ∧ c.toNat ≠ 127 ∧ c ∉ g!"/?#") (hh : ∀ c ∈ host, 32 ≤ c.toNat ∧ c.toNat ≠ 127 ∧ c ∉ g!"/?#@")
    (hp : UrlPath path) (hq : QueryPart pairs qt) (hf : FragmentPart fragment frag) :
    ∃ rq, parse (scheme ++ g!"://" ++ user ++ host ++ path ++ qt ++ frag) =
        (parseAuthority (user ++ host)).map (fun h => { host := h, rawQuery := rq, fragment := fragment }) ∧
      (splitChar '&' rq).filterMap queryPair = pairs := by
  obtain ⟨s1, _, s3⟩ := scheme_lower hs
  have p1 : (∀ c ∈ path, 32 ≤ c.toNat ∧ c.toNat ≠ 127 ∧ c ∉ g!"?#") ∧ (unescape false path).isSome = true := by
    rcases hp with rfl | ⟨s, u, hu, rfl⟩
    · exact ⟨by simp, by simp [unescape]⟩
    · have v := shown_visible (by decide) hu
      have : Shown false (Visible g!"?#") ('/' :: s) ('/' :: u) := .char (by unfold Visible; decide) (by decide) (by simp) hu
      exact ⟨shown_visible (by decide) this, by rw [shown_unescape this]; rfl⟩
  obtain ⟨rq, q1, q2, q3, q4⟩ : ∃ rq, (qt = [] ∧ rq = [] ∨ qt = '?' :: rq ∧ rq ≠ []) ∧ (splitChar '&' rq).filterMap queryPair = pairs ∧ '#' ∉ qt ∧
      ∀ c ∈ qt, 32 ≤ c.toNat ∧ c.toNat ≠ 127 := by
    rcases hq with ⟨rfl, rfl⟩ | ⟨u, hu, rfl⟩
    · exact ⟨[], Or.inl ⟨rfl, rfl⟩, by simp [splitChar, queryPair], by simp, by simp⟩
    · obtain ⟨a, b, c, d⟩ := pairs_read hu
      refine ⟨u, Or.inr ⟨rfl, b⟩, a, by simp [c], ?_⟩
      intro x hx
      rcases List.mem_cons.1 hx with rfl | hx
      · decide
      · exact d x hx
  have scheme_hash : '#' ∉ scheme := by
    obtain ⟨c, t, rfl, hc, ht⟩ := hs
    intro hm
    rcases List.mem_cons.1 hm with rfl | hm
    · exact absurd hc (by decide)
    · exact absurd (ht _ hm) (by decide)
  generalize hraw : scheme ++ g!"://" ++ user ++ host ++ path ++ qt = raw
  have hhash : '#' ∉ raw := by
    rw [← hraw]
    have a : '#' ∉ user := fun hm => (u2 '#' hm).2.2 (by decide)
    have b : '#' ∉ host := fun hm => (hh '#' hm).2.2 (by decide)
    have c : '#' ∉ path := fun hm => (p1.1 '#' hm).2.2 (by decide)
    simp [scheme_hash, a, b, c, q3]
  have hctl : hasCTL raw = false := by
    apply hasCTL_false
    rw [← hraw]
    intro c hc
    simp only [List.mem_append] at hc
    rcases hc with ((((hc | hc) | hc) | hc) | hc) | hc
    · exact s3 c hc
    · revert c; decide
    · exact ⟨(u2 c hc).1, (u2 c hc).2.1⟩
    · exact ⟨(hh c hc).1, (hh c hc).2.1⟩
    · exact ⟨(p1.1 c hc).1, (p1.1 c hc).2.1⟩
    · exact q4 c hc
  have hbase : parseNoFragment raw = (parseAuthority (user ++ host)).map fun h => { host := h, rawQuery := rq } := by
    unfold parseNoFragment
    rw [hctl, if_neg (by simp), if_neg (by rw [← hraw]; cases scheme <;> simp)]
    have e : raw = scheme ++ ':' :: (g!"//" ++ user ++ host ++ path ++ qt) := by rw [← hraw]; simp
    have hg : getScheme raw [] raw = some (scheme, g!"//" ++ user ++ host ++ path ++ qt) := by
      have := getScheme_text hs raw (g!"//" ++ user ++ host ++ path ++ qt)
      rw [← e] at this
      exact this
    rw [hg]
    dsimp only
    have hnq : '?' ∉ g!"//" ++ user ++ host ++ path := by
      have a : '?' ∉ user := fun hm => (u2 '?' hm).2.2 (by decide)
      have b : '?' ∉ host := fun hm => (hh '?' hm).2.2 (by decide)
      have c : '?' ∉ path := fun hm => (p1.1 '?' hm).2.2 (by decide)
      simp [a, b, c]
    have hcq : cutQuery (g!"//" ++ user ++ host ++ path ++ qt) = (g!"//" ++ user ++ host ++ path, rq) := by
      rcases q1 with ⟨rfl, rfl⟩ | ⟨rfl, hne⟩
      · rw [List.append_nil, cutQuery_none hnq]
      · rw [cutQuery_some hnq hne]
    rw [hcq]
    dsimp only
    have e2 : g!"//" ++ user ++ host ++ path = g!"//" ++ (user ++ host ++ path) := by simp
    rw [e2]
    have h1 : hasPrefix (g!"//" ++ (user ++ host ++ path)) g!"/" = true := (hasPrefix_iff _ _).2 ⟨'/' :: (user ++ host ++ path), by simp⟩
    have h2 : hasPrefix (g!"//" ++ (user ++ host ++ path)) g!"//" = true := (hasPrefix_iff _ _).2 ⟨_, rfl⟩
    rw [h1, h2, if_neg (by simp), if_pos (by simp [s1])]
    have hcut : (cut (user ++ host ++ path) g!"/").1 = user ++ host := by
      have hns : '/' ∉ user ++ host := by
        have a : '/' ∉ user := fun hm => (u2 '/' hm).2.2 (by decide)
        have b : '/' ∉ host := fun hm => (hh '/' hm).2.2 (by decide)
        simp [a, b]
      rcases hp with rfl | ⟨s, u, _, rfl⟩
      · rw [List.append_nil, cut_char_none _ _ hns]
      · rw [cut_char _ _ _ hns]
    rw [show (g!"//" ++ (user ++ host ++ path)).drop 2 = user ++ host ++ path from rfl, hcut, List.drop_left]
    obtain ⟨x, hx⟩ := Option.isSome_iff_exists.1 p1.2
    rw [hx]
    cases parseAuthority (user ++ host) <;> rfl
  refine ⟨rq, ?_, q2⟩
  unfold parse
  rcases hf with ⟨rfl, rfl⟩ | ⟨w, hw, rfl⟩
  · rw [List.append_nil, cut_char_none _ _ hhash]
    dsimp only
    rw [hbase]
    cases parseAuthority (user ++ host) <;> simp [unescape]
  · rw [cut_char _ _ _ hhash]
    dsimp only
    rw [hbase, shown_unescape hw]
    cases parseAuthority (user ++ host) <;> rfl

theorem git_read {host : Str} {pairs : List (Str × Str)} {fragment url : Str} (h : GitUrl host pairs fragment url)
    (hh : ∀ c ∈ host, 32 ≤ c.toNat ∧ c.toNat ≠ 127 ∧ c ∉ g!"/?#@") :
    ∃ u, parse url = some u ∧ u.host = host ∧ query u = pairs ∧ u.fragment = fragment := by
  obtain ⟨scheme, user, path, qt, frag, hs, hu, hp, hq, hf, rfl⟩ := h
  obtain ⟨u1, u2⟩ := user_read hu (host := host) fun hm => (hh _ hm).2.2 (by decide)
  obtain ⟨rq, h1, h2⟩ := url_read hs u2 hh hp hq hf
  rw [u1] at h1
  exact ⟨_, h1, rfl, h2, rfl⟩

end Url

theorem C55_named (pairs : List (Str × Str)) (fragment c : Str) (h : NamedBy pairs fragment c) :
    (match pairs.lookup g!"ref" with
      | some v => v
      | none => fragment) = c := by
  rcases h with ⟨pre, post, rfl, hpre⟩ | ⟨hn, rfl⟩
  · have : (pre ++ (g!"ref", c) :: post).lookup g!"ref" = some c := by
      induction pre with
      | nil => simp
      | cons x pre ih =>
        rw [List.cons_append, List.lookup_cons]
        have hx := hpre x (by simp)
        have : (g!"ref" == x.1) = false := by
          rw [beq_eq_false_iff_ne]
          exact Ne.symm hx
        rw [this]
        exact ih fun p hp => hpre p (by simp [hp])
    rw [this]
  · have : pairs.lookup g!"ref" = none := by
      rw [List.lookup_eq_none_iff]
      intro p hp
      rw [bne_iff_ne]
      exact Ne.symm (hn p hp)
    rw [this]

/-- A URL of a git host with a user, a path, a query and a fragment, in which characters may be coded: the first `ref` of the query is
the commit, and otherwise the fragment, unless the URL has one of the other forms. -/
theorem C55_git_hosts (host : Str) (pairs : List (Str × Str)) (fragment s c : Str)
    (hh : host = g!"bitbucket.org" ∨ host = g!"github.com" ∨ host = g!"gitlab.com") (h : GitUrl host pairs fragment s)
    (hn : NamedBy pairs fragment c) (hf : ∀ c, CommitText c → ¬ CommitForm s c) : tryExtractCommit s = c := by
  unfold tryExtractCommit
  cases hm : firstMatcher commitMatchers s with
  | some c' =>
    obtain ⟨r, hr, f, hfd, rfl⟩ := Commit.firstMatcher_some hm
    obtain ⟨h1, h2⟩ := Commit.form_of_find hr hfd
    exact absurd h1 (hf _ h2)
  | none =>
    obtain ⟨u, hu, h1, h2, h3⟩ := Url.git_read h (by rcases hh with rfl | rfl | rfl <;> decide)
    dsimp only
    unfold commitOfUrl
    rw [hu]
    dsimp only
    rw [if_pos (by rw [h1]; rcases hh with rfl | rfl | rfl <;> decide), h2, h3]
    exact C55_named pairs fragment c hn

/-- A URL of any other host names no commit, unless it has one of the other forms. -/
theorem C55_other_hosts (host : Str) (pairs : List (Str × Str)) (fragment s : Str) (hh : ∀ c ∈ host, 32 ≤ c.toNat ∧ c.toNat ≠ 127 ∧ c ∉ g!"/?#@")
    (ho : host ≠ g!"bitbucket.org" ∧ host ≠ g!"github.com" ∧ host ≠ g!"gitlab.com") (h : GitUrl host pairs fragment s)
    (hf : ∀ c, CommitText c → ¬ CommitForm s c) : tryExtractCommit s = [] := by
  unfold tryExtractCommit
  cases hm : firstMatcher commitMatchers s with
  | some c' =>
    obtain ⟨r, hr, f, hfd, rfl⟩ := Commit.firstMatcher_some hm
    obtain ⟨h1, h2⟩ := Commit.form_of_find hr hfd
    exact absurd h1 (hf _ h2)
  | none =>
    obtain ⟨u, hu, h1, _, _⟩ := Url.git_read h hh
    dsimp only
    unfold commitOfUrl
    rw [hu]
    dsimp only
    rw [if_neg (by rw [h1]; simp [gitRepoHosts, ho])]

/-- A user with a character that must be coded makes it no URL. -/
theorem C55_bad_user (scheme user host path query frag fragment : Str) (pairs : List (Str × Str)) (hs : SchemeText scheme)
    (hu : ∀ c ∈ user, 32 ≤ c.toNat ∧ c.toNat ≠ 127 ∧ c ∉ g!"/?#")
    (hb : ∃ c ∈ user, c ∉ g!"%abcdefghijklmnopqrstuvwxyzABCDEFGHIJKLMNOPQRSTUVWXYZ0123456789-._:~!$&'()*+,;=@")
    (hh : ∀ c ∈ host, 32 ≤ c.toNat ∧ c.toNat ≠ 127 ∧ c ∉ g!"/?#@") (hp : UrlPath path) (hq : QueryPart pairs query)
    (hf : FragmentPart fragment frag)
    (h : tryExtractCommit (scheme ++ g!"://" ++ (user ++ g!"@") ++ host ++ path ++ query ++ frag) ≠ []) :
    ∃ c, CommitForm (scheme ++ g!"://" ++ (user ++ g!"@") ++ host ++ path ++ query ++ frag) c ∧ CommitText c := by
  rcases C55_only _ h with h | ⟨u, hu', _⟩
  · exact ⟨_, h⟩
  · exfalso
    obtain ⟨rq, h1, _⟩ := Url.url_read (user := user ++ g!"@") hs (by
      intro c hc
      rcases List.mem_append.1 hc with hc | hc
      · exact hu c hc
      · rw [List.mem_singleton.1 hc]; decide) hh hp hq hf
    have hno : Url.parseAuthority (user ++ g!"@" ++ host) = none := by
      unfold Url.parseAuthority
      rw [show user ++ g!"@" ++ host = user ++ '@' :: host by simp, cutLast?_append _ _ _ fun hm => (hh _ hm).2.2 (by decide)]
      dsimp only
      have hv : Url.validUserinfo user = false := by
        obtain ⟨c, hc, hb⟩ := hb
        unfold Url.validUserinfo
        rw [Bool.eq_false_iff, ne_eq, List.all_eq_true]
        intro hall
        have := hall c hc
        apply hb
        simp only [Bool.or_eq_true] at this
        rcases this with (h | h) | h
        · have key : ∀ n < 128, Url.isLetter (Char.ofNat n) = true →
              Char.ofNat n ∈ g!"%abcdefghijklmnopqrstuvwxyzABCDEFGHIJKLMNOPQRSTUVWXYZ0123456789-._:~!$&'()*+,;=@" := by decide +kernel
          have hn : c.toNat < 128 := by
            unfold Url.isLetter at h
            simp at h
            omega
          have := key c.toNat hn
          simp only [Char.ofNat_toNat] at this
          exact this h
        · have key : ∀ n < 128, isDigit (Char.ofNat n) = true →
              Char.ofNat n ∈ g!"%abcdefghijklmnopqrstuvwxyzABCDEFGHIJKLMNOPQRSTUVWXYZ0123456789-._:~!$&'()*+,;=@" := by decide +kernel
          have hn : c.toNat < 128 := by
            simp only [isDigit, Bool.and_eq_true, decide_eq_true_eq] at h
            have : c.toNat ≤ 57 := h.2
            omega
          have := key c.toNat hn
          simp only [Char.ofNat_toNat] at this
          exact this h
        · have key : ∀ c ∈ g!"-._:~!$&'()*+,;=%@",
              c ∈ g!"%abcdefghijklmnopqrstuvwxyzABCDEFGHIJKLMNOPQRSTUVWXYZ0123456789-._:~!$&'()*+,;=@" := by decide +kernel
          exact key c (by simpa using h)
      rw [hv]
      rfl
    rw [hno, hu'] at h1
    cases h1

/-- A text with a control character before `#` is no URL. -/
theorem C55_control (s : Str) (a : Str) (x : Char) (b : Str) (e : s = a ++ x :: b) (ha : '#' ∉ a) (hx : x.toNat < 32 ∨ x.toNat = 127)
    (h : tryExtractCommit s ≠ []) : CommitForm s (tryExtractCommit s) ∧ CommitText (tryExtractCommit s) := by
  rcases C55_only s h with h | ⟨u, hu, _⟩
  · exact h
  · exfalso
    have hb : x ∈ (cut s g!"#").1 := by
      subst e
      by_cases hc : '#' ∈ a ++ x :: b
      · have hb : '#' ∈ x :: b := by
          rcases List.mem_append.1 hc with hm | hm
          · exact absurd hm ha
          · exact hm
        have hxh : x ≠ '#' := by rintro rfl; revert hx; decide
        have hb : '#' ∈ b := by
          rcases List.mem_cons.1 hb with hm | hm
          · exact absurd hm.symm hxh
          · exact hm
        have : ∀ (b : Str), '#' ∈ b → ∃ p q, b = p ++ '#' :: q ∧ '#' ∉ p := by
          intro b
          induction b with
          | nil => intro h; cases h
          | cons d b ih =>
            intro hm
            by_cases hd : d = '#'
            · exact ⟨[], b, by rw [hd]; rfl, by simp⟩
            · rcases List.mem_cons.1 hm with hm | hm
              · exact absurd hm.symm hd
              · obtain ⟨p, q, rfl, hp⟩ := ih hm
                exact ⟨d :: p, q, rfl, by simp [hp, Ne.symm hd]⟩
        obtain ⟨p', q', rfl, hp'⟩ := this b hb
        rw [show a ++ x :: (p' ++ '#' :: q') = (a ++ x :: p') ++ '#' :: q' by simp, cut_char _ _ _ (by simp [ha, hp', Ne.symm hxh])]
        simp
      · rw [cut_char_none _ _ hc]
        simp
    unfold Url.parse at hu
    dsimp only at hu
    have hctl : Url.hasCTL (cut s g!"#").1 = true := by
      unfold Url.hasCTL
      rw [List.any_eq_true]
      exact ⟨x, hb, by simpa using hx⟩
    unfold Url.parseNoFragment at hu
    rw [hctl, if_pos rfl] at hu
    cases hu

/-! ### Non-vacuity -/

theorem shown_self {plus : Bool} {ok : Char → Prop} (s : Str) (h : ∀ c ∈ s, ok c ∧ c ≠ '%' ∧ c ≠ '+') : Shown plus ok s s := by
  induction s with
  | nil => exact .nil
  | cons c s ih =>
    obtain ⟨h1, h2, h3⟩ := h c (by simp)
    exact .char h1 h2 (fun _ => h3) (ih fun d hd => h d (by simp [hd]))

/-- A URL with a user, a coded character in the `ref` and a fragment. -/
example : GitUrl g!"github.com" [(g!"a", g!"1 "), (g!"ref", g!"v1")] g!"x.y" g!"http://me:pw@github.com/a/b?a=1+&ref=%761#x.y" ∧
    NamedBy [(g!"a", g!"1 "), (g!"ref", g!"v1")] g!"x.y" g!"v1" := by
  refine ⟨⟨g!"http", g!"me:pw@", g!"/a/b", g!"?a=1+&ref=%761", g!"#x.y", ⟨'h', g!"ttp", rfl, by decide, by decide⟩,
    Or.inr ⟨g!"me:pw", g!"me:pw", shown_self _ (by decide), rfl⟩, Or.inr ⟨g!"a/b", g!"a/b", shown_self _ (by unfold Visible; decide), rfl⟩,
    Or.inr ⟨_, .cons (t := g!"a=1+") ⟨g!"a", g!"1+", shown_self _ (by unfold Visible; decide),
      .char (by unfold Visible; decide) (by decide) (by decide) (.space rfl .nil), rfl⟩
      (.one (t := g!"ref=%761") ⟨g!"ref", g!"%761", shown_self _ (by unfold Visible; decide),
        .code (by decide) (Or.inl rfl) (Or.inl rfl) (shown_self g!"1" (by unfold Visible; decide)), rfl⟩), rfl⟩,
    Or.inr ⟨g!"x.y", shown_self _ (by simp), rfl⟩, rfl⟩, Or.inl ⟨[_], [], rfl, by decide⟩⟩

/-- It has no other form. -/
example : tryExtractCommit g!"http://me:pw@github.com/a/b?a=1+&ref=%761#x.y" = g!"v1" := by decide +kernel

end Osv
