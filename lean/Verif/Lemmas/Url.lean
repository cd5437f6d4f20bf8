import Verif.Go.Url
import Verif.Lemmas.Text
/-! # Parsing `https` URLs -/
namespace Osv.Url
open Osv Str Spec

theorem getScheme_https (raw rest : Str) : getScheme raw [] (g!"https:" ++ rest) = some (g!"https", rest) := by
  simp [getScheme, isLetter, isDigit]

theorem cutQuery_fst (s : Str) : ∃ r, s = (cutQuery s).1 ++ r ∧ '?' ∉ (cutQuery s).1 := by
  unfold cutQuery
  split
  · rename_i h
    simp only [Bool.and_eq_true, beq_iff_eq] at h
    obtain ⟨t, rfl⟩ := (hasSuffix_iff _ _).1 h.1
    have h2 := h.2
    refine ⟨['?'], by simp, ?_⟩
    simp only [List.dropLast_concat]
    intro hm
    have : 0 < (t.filter (· == '?')).length := List.length_pos_of_mem (List.mem_filter.2 ⟨hm, by simp⟩)
    simp at h2
    have h3 := List.length_pos_iff.1 this
    apply h3
    rw [List.filter_eq_nil_iff]
    intro a ha
    simpa using h2 a ha
  · have hb : Before '?' s (cut s g!"?").1 := cut_char_fst_iff.1 rfl
    rcases hb.2 with h | ⟨r, h⟩
    · exact ⟨[], by simpa using h, hb.1⟩
    · exact ⟨_, h, hb.1⟩

theorem unescape_plain (p : Bool) (s : Str) (h : '%' ∉ s) (h2 : p = true → '+' ∉ s) : unescape p s = some s := by
  induction s with
  | nil => simp [unescape]
  | cons c s ih =>
    simp at h
    have ih := ih h.2 (fun hp hm => h2 hp (by simp [hm]))
    unfold unescape
    split
    · rename_i e; simp at e
    · rename_i e
      simp at e
      exact absurd e.1.symm h.1
    · rename_i e
      cases e
      rw [if_neg (Ne.symm h.1), ih]
      cases p with
      | false => simp
      | true =>
        have : c ≠ '+' := fun hc => h2 rfl (by simp [hc])
        simp [this]

/-- No authority marks in the host. -/
structure PlainHost (host : Str) : Prop where
  slash : '/' ∉ host
  query : '?' ∉ host
  hash : '#' ∉ host
  at_ : '@' ∉ host

theorem prefix_of_split {c : Char} {a b x y : Str} (hy : c ∉ a) (e : a ++ b = x ++ c :: y) : ∃ t, x = a ++ t := by
  rcases List.append_eq_append_iff.1 e with ⟨t, h1, h2⟩ | ⟨t, h1, h2⟩
  · exact ⟨t, h1⟩
  · cases t with
    | nil => exact ⟨[], by simpa using h1.symm⟩
    | cons d t =>
      simp at h2
      exact absurd (by rw [h1, ← h2.1]; simp) hy

/-- The text up to the first `c` of `a ++ b` if `a` has none. -/
theorem before_append {c : Char} {a b p : Str} (ha : c ∉ a) (h : Before c (a ++ b) p) : ∃ t, p = a ++ t ∧ Before c b t := by
  obtain ⟨hn, e | ⟨r, e⟩⟩ := h
  · exact ⟨b, e.symm, fun hm => hn (by rw [← e]; simp [hm]), Or.inl rfl⟩
  · obtain ⟨t, rfl⟩ := prefix_of_split ha e
    refine ⟨t, rfl, fun hm => hn (by simp [hm]), Or.inr ⟨r, ?_⟩⟩
    simpa using e

theorem parse_authority_of {host rest : Str} (hh : PlainHost host) :
    (cut (host ++ '/' :: rest) g!"/").1 = host := by
  rw [cut_char _ _ _ hh.slash]

/-- The host of an `https` URL. -/
theorem parse_host {host rest : Str} (hh : PlainHost host) {u : URL}
    (h : parse (g!"https://" ++ host ++ '/' :: rest) = some u) : u.host = host := by
  unfold parse at h
  dsimp only at h
  have hb : Before '#' (g!"https://" ++ host ++ '/' :: rest) (cut (g!"https://" ++ host ++ '/' :: rest) g!"#").1 :=
    cut_char_fst_iff.1 rfl
  generalize cut (g!"https://" ++ host ++ '/' :: rest) g!"#" = p at h hb
  obtain ⟨t, ht, hb'⟩ := before_append (c := '#') (a := g!"https://" ++ host ++ ['/']) (b := rest)
    (by simp [hh.hash]) (by simpa using hb)
  cases hp : parseNoFragment p.1 with
  | none => rw [hp] at h; cases h
  | some v =>
    rw [hp] at h
    dsimp only at h
    rw [Option.map_eq_some_iff] at h
    obtain ⟨f, _, rfl⟩ := h
    dsimp only
    rw [ht] at hp
    have e : g!"https://" ++ host ++ ['/'] ++ t = g!"https:" ++ (g!"//" ++ host ++ '/' :: t) := by simp
    rw [e] at hp
    unfold parseNoFragment at hp
    rw [getScheme_https] at hp
    split at hp
    · cases hp
    · rw [if_neg (by simp)] at hp
      dsimp only at hp
      obtain ⟨r, hr, hq⟩ := cutQuery_fst (g!"//" ++ host ++ '/' :: t)
      -- the part before the query still starts with the host
      have hx : ∃ z, (cutQuery (g!"//" ++ host ++ '/' :: t)).1 = g!"//" ++ host ++ '/' :: z := by
        unfold cutQuery
        split
        · rename_i hc
          simp only [Bool.and_eq_true] at hc
          obtain ⟨w, hw⟩ := (hasSuffix_iff _ _).1 hc.1
          rw [hw, List.dropLast_concat]
          obtain ⟨z, hz⟩ := prefix_of_split (c := '?') (a := g!"//" ++ host ++ ['/']) (b := t) (x := w) (y := [])
            (by simp [hh.query]) (by simpa using hw)
          exact ⟨z, by simpa using hz⟩
        · obtain ⟨z, hz, _⟩ := before_append (c := '?') (a := g!"//" ++ host ++ ['/']) (b := t)
            (p := (cut (g!"//" ++ host ++ '/' :: t) g!"?").1) (by simp [hh.query]) (by
              have : Before '?' (g!"//" ++ host ++ '/' :: t) (cut (g!"//" ++ host ++ '/' :: t) g!"?").1 := cut_char_fst_iff.1 rfl
              simpa using this)
          exact ⟨z, by simpa using hz⟩
      obtain ⟨z, hz⟩ := hx
      rw [hz] at hp
      rw [if_neg (by
        rw [(hasPrefix_iff (g!"//" ++ host ++ '/' :: z) g!"/").2 ⟨g!"/" ++ host ++ '/' :: z, by simp⟩]; simp)] at hp
      rw [if_pos (by
        rw [(hasPrefix_iff (g!"//" ++ host ++ '/' :: z) g!"//").2 ⟨host ++ '/' :: z, by simp⟩]; simp)] at hp
      have e2 : (g!"//" ++ host ++ '/' :: z).drop 2 = host ++ '/' :: z := by simp
      rw [e2, parse_authority_of hh] at hp
      unfold parseAuthority at hp
      rw [cutLast?_none _ _ hh.at_] at hp
      dsimp only at hp
      rw [Option.map_eq_some_iff] at hp
      obtain ⟨_, _, rfl⟩ := hp
      rfl

/-- Plain text of a path: nothing to decode and no marks. -/
structure PlainPath (s : Str) : Prop where
  percent : '%' ∉ s
  query : '?' ∉ s
  hash : '#' ∉ s
  ctl : hasCTL s = false

theorem hasCTL_append (a b : Str) : hasCTL (a ++ b) = (hasCTL a || hasCTL b) := by simp [hasCTL]

/-- An `https` URL with a plain path and query. -/
theorem parse_plain {host path : Str} {query : Option Str} {frag : Str} (hh : PlainHost host) (hc : hasCTL host = false)
    (hp : PlainPath path) (hq : ∀ q ∈ query, q ≠ [] ∧ '#' ∉ q ∧ hasCTL q = false) (hf : '%' ∉ frag) :
    parse (g!"https://" ++ host ++ '/' :: path ++ (query.map ('?' :: ·)).getD [] ++ '#' :: frag) =
      some ⟨host, query.getD [], frag⟩ := by
  have hqh : '#' ∉ (query.map ('?' :: ·)).getD [] := by
    cases query with
    | none => simp
    | some q => simpa using (hq q rfl).2.1
  have hqc : hasCTL ((query.map ('?' :: ·)).getD []) = false := by
    cases query with
    | none => rfl
    | some q =>
      have := (hq q rfl).2.2
      show hasCTL ('?' :: q) = false
      rw [show '?' :: q = g!"?" ++ q from rfl, hasCTL_append, this]
      decide
  unfold parse
  dsimp only
  rw [cut_char '#' _ _ (by simp [hh.hash, hp.hash]; simpa using hqh)]
  dsimp only
  have e : parseNoFragment (g!"https://" ++ host ++ '/' :: path ++ (query.map ('?' :: ·)).getD []) =
      some ⟨host, query.getD [], []⟩ := by
    have e1 : g!"https://" ++ host ++ '/' :: path ++ (query.map ('?' :: ·)).getD [] =
      g!"https:" ++ (g!"//" ++ host ++ '/' :: path ++ (query.map ('?' :: ·)).getD []) := by simp
    rw [e1]
    unfold parseNoFragment
    rw [getScheme_https, if_neg, if_neg (by simp)]
    · dsimp only
      have e2 : cutQuery (g!"//" ++ host ++ '/' :: path ++ (query.map ('?' :: ·)).getD []) =
          (g!"//" ++ host ++ '/' :: path, query.getD []) := by
        have hnq : '?' ∉ g!"//" ++ host ++ '/' :: path := by simp [hh.query, hp.query]
        cases query with
        | none =>
          simp only [Option.map_none, Option.getD_none, List.append_nil]
          unfold cutQuery
          rw [if_neg, cut_char_none _ _ hnq]
          intro h
          simp only [Bool.and_eq_true] at h
          obtain ⟨t, ht⟩ := (hasSuffix_iff _ _).1 h.1
          exact hnq (by rw [ht]; simp)
        | some q =>
          simp only [Option.map_some, Option.getD_some]
          unfold cutQuery
          rw [if_neg, cut_char _ _ _ hnq]
          intro h
          simp only [Bool.and_eq_true, beq_iff_eq] at h
          obtain ⟨t, ht⟩ := (hasSuffix_iff _ _).1 h.1
          have h1 := h.2
          rw [List.filter_append, List.filter_cons_of_pos (by simp)] at h1
          have h2 : q.filter (· == '?') = [] := by
            simp only [List.length_append, List.length_cons] at h1
            apply List.length_eq_zero_iff.1
            omega
          have h3 : q.getLast? = some '?' := by
            have := congrArg List.getLast? ht
            rw [getLast?_append_ne _ _ (by simp), getLast?_append_ne _ _ (by simp)] at this
            rw [show '?' :: q = ['?'] ++ q from rfl, getLast?_append_ne _ _ (hq q rfl).1] at this
            exact this
          have h4 : '?' ∈ q := List.mem_of_getLast? h3
          rw [List.filter_eq_nil_iff] at h2
          exact h2 _ h4 (by simp)
      rw [e2]
      dsimp only
      rw [if_neg (by
        rw [(hasPrefix_iff (g!"//" ++ host ++ '/' :: path) g!"/").2 ⟨g!"/" ++ host ++ '/' :: path, by simp⟩]; simp)]
      rw [if_pos (by
        rw [(hasPrefix_iff (g!"//" ++ host ++ '/' :: path) g!"//").2 ⟨host ++ '/' :: path, by simp⟩]; simp)]
      have e3 : (g!"//" ++ host ++ '/' :: path).drop 2 = host ++ '/' :: path := by simp
      rw [e3, parse_authority_of hh]
      unfold parseAuthority
      rw [cutLast?_none _ _ hh.at_]
      dsimp only
      rw [List.drop_left, unescape_plain false ('/' :: path) (by simp [hp.percent]) (by simp)]
      rfl
    · have : hasCTL (g!"https:" ++ (g!"//" ++ host ++ '/' :: path ++ (query.map ('?' :: ·)).getD [])) = false := by
        rw [show '/' :: path = g!"/" ++ path from rfl]
        simp only [hasCTL_append, hc, hp.ctl, hqc]
        decide
      rw [this]; simp
  rw [e]
  dsimp only
  rw [unescape_plain false frag hf (by simp)]
  rfl

end Osv.Url
