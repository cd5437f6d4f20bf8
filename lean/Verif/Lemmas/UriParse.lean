import Verif.Lemmas.UriDecode
import Verif.Lemmas.Npm
/-! # Parsing URIs -/
namespace Osv.Url
open Osv Str Spec

/-! ### Schemes -/

theorem letter_iff (c : Char) : isLetter c = true ↔ c ∈ g!"abcdefghijklmnopqrstuvwxyzABCDEFGHIJKLMNOPQRSTUVWXYZ" := by
  constructor
  · intro h
    have hc : c.toNat < 128 := by unfold isLetter at h; simp at h; omega
    have key : ∀ i : Fin 128, isLetter (Char.ofNat i.val) = true → Char.ofNat i.val ∈ g!"abcdefghijklmnopqrstuvwxyzABCDEFGHIJKLMNOPQRSTUVWXYZ" := by
      decide +kernel
    have := key ⟨c.toNat, hc⟩
    simp only [Char.ofNat_toNat] at this
    exact this h
  · have key : ∀ c ∈ g!"abcdefghijklmnopqrstuvwxyzABCDEFGHIJKLMNOPQRSTUVWXYZ", isLetter c = true := by decide +kernel
    exact key c

theorem digit_mem (c : Char) : isDigit c = true ↔ c ∈ g!"0123456789" := by
  constructor
  · intro h
    have hc : c.toNat < 128 := by
      unfold isDigit at h
      rw [Bool.and_eq_true, decide_eq_true_eq, decide_eq_true_eq] at h
      have : c.toNat ≤ 57 := UInt32.le_iff_toNat_le.1 h.2
      omega
    have key : ∀ i : Fin 128, isDigit (Char.ofNat i.val) = true → Char.ofNat i.val ∈ g!"0123456789" := by decide +kernel
    have := key ⟨c.toNat, hc⟩
    simp only [Char.ofNat_toNat] at this
    exact this h
  · have key : ∀ c ∈ g!"0123456789", isDigit c = true := by decide +kernel
    exact key c

theorem scheme_mem (c : Char) : (isLetter c = true ∨ (isDigit c || c == '+' || c == '-' || c == '.') = true) ↔
    c ∈ g!"abcdefghijklmnopqrstuvwxyzABCDEFGHIJKLMNOPQRSTUVWXYZ0123456789+-." := by
  have e : g!"abcdefghijklmnopqrstuvwxyzABCDEFGHIJKLMNOPQRSTUVWXYZ0123456789+-." =
      g!"abcdefghijklmnopqrstuvwxyzABCDEFGHIJKLMNOPQRSTUVWXYZ" ++ (g!"0123456789" ++ g!"+-.") := rfl
  rw [e, List.mem_append, List.mem_append, ← letter_iff, ← digit_mem]
  simp [or_assoc]

theorem scheme_more (raw acc s rest : Str) (ha : acc ≠ [])
    (h : ∀ c ∈ s, c ∈ g!"abcdefghijklmnopqrstuvwxyzABCDEFGHIJKLMNOPQRSTUVWXYZ0123456789+-.") :
    getScheme raw acc (s ++ ':' :: rest) = some (acc ++ s, rest) := by
  induction s generalizing acc with
  | nil =>
    have : acc.isEmpty = false := by simpa using ha
    simp [getScheme, isLetter, isDigit, this]
  | cons c s ih =>
    have hc := (scheme_mem c).2 (h c (by simp))
    have ih := ih (acc ++ [c]) (by simp) (fun d hd => h d (by simp [hd]))
    have he : acc.isEmpty = false := by simpa using ha
    rw [List.cons_append, getScheme, ih]
    by_cases hl : isLetter c = true
    · rw [if_pos hl]; simp
    · rw [if_neg hl, if_pos (hc.resolve_left hl), he]; simp

theorem scheme_read {s : Str} (h : UriScheme s) (raw rest : Str) : getScheme raw [] (s ++ ':' :: rest) = some (s, rest) := by
  obtain ⟨c, t, rfl, hc, ht⟩ := h
  rw [List.cons_append, getScheme, if_pos ((letter_iff c).2 hc), scheme_more _ _ _ _ (by simp) ht]
  rfl

/-- What `getScheme` returns is a scheme, or there is none. -/
theorem scheme_inv_acc (raw acc s x r : Str) (h : getScheme raw acc s = some (x, r)) :
    (x = [] ∧ r = raw) ∨ ∃ t, x = acc ++ t ∧ s = t ++ ':' :: r ∧ x ≠ [] ∧
      (∀ d ∈ t, d ∈ g!"abcdefghijklmnopqrstuvwxyzABCDEFGHIJKLMNOPQRSTUVWXYZ0123456789+-.") ∧ (acc = [] → ∀ d ∈ t.head?, isLetter d = true) := by
  induction s generalizing acc with
  | nil =>
    unfold getScheme at h
    cases h
    exact Or.inl ⟨rfl, rfl⟩
  | cons c s ih =>
    unfold getScheme at h
    split at h
    · rename_i hc
      rcases ih _ h with h | ⟨t, h1, h2, h3, h4, _⟩
      · exact Or.inl h
      · refine Or.inr ⟨c :: t, by simpa using h1, by rw [h2]; rfl, h3, ?_, ?_⟩
        · intro d hd
          rcases List.mem_cons.1 hd with rfl | hd
          · exact (scheme_mem _).1 (Or.inl hc)
          · exact h4 d hd
        · intro _ d hd; cases hd; exact hc
    · split at h
      · rename_i hc
        split at h
        · cases h; exact Or.inl ⟨rfl, rfl⟩
        · rename_i ha
          rcases ih _ h with h | ⟨t, h1, h2, h3, h4, _⟩
          · exact Or.inl h
          · refine Or.inr ⟨c :: t, by simpa using h1, by rw [h2]; rfl, h3, ?_, ?_⟩
            · intro d hd
              rcases List.mem_cons.1 hd with rfl | hd
              · exact (scheme_mem _).1 (Or.inr hc)
              · exact h4 d hd
            · rintro rfl; exact absurd rfl ha
      · split at h
        · rename_i hc
          simp only [beq_iff_eq] at hc
          subst hc
          split at h
          · cases h
          · rename_i ha
            cases h
            exact Or.inr ⟨[], by simp, rfl, by simpa using ha, by simp, by simp⟩
        · cases h; exact Or.inl ⟨rfl, rfl⟩

theorem scheme_inv {raw x r : Str} (h : getScheme raw [] raw = some (x, r)) :
    (x = [] ∧ r = raw) ∨ (UriScheme x ∧ raw = x ++ ':' :: r) := by
  rcases scheme_inv_acc _ _ _ _ _ h with h | ⟨t, h1, h2, h3, h4, h5⟩
  · exact Or.inl h
  · rw [List.nil_append] at h1
    subst h1
    obtain ⟨c, t, rfl⟩ := List.exists_cons_of_ne_nil h3
    exact Or.inr ⟨⟨c, t, rfl, (letter_iff c).1 (h5 rfl c rfl), fun d hd => h4 d (by simp [hd])⟩, h2⟩

theorem scheme_ne {s : Str} (h : UriScheme s) : s ≠ [] := by
  obtain ⟨c, t, rfl, _⟩ := h
  simp

/-! ### Queries -/

theorem query_read {a : Str} (q : Option Str) (ha : '?' ∉ a) :
    cutQuery (a ++ uriQuery q) = (a, q.getD []) ∧
    (hasSuffix (a ++ uriQuery q) g!"?" && ((a ++ uriQuery q).filter (· == '?')).length == 1) = decide (q = some []) := by
  cases q with
  | none =>
    rw [show a ++ uriQuery none = a from List.append_nil a]
    exact ⟨cutQuery_none ha, force_false ha⟩
  | some t =>
    have hf : a.filter (· == '?') = [] := by
      rw [List.filter_eq_nil_iff]
      intro c hc
      simp only [beq_iff_eq]
      rintro rfl
      exact ha hc
    show cutQuery (a ++ '?' :: t) = (a, t) ∧ (hasSuffix (a ++ '?' :: t) g!"?" && ((a ++ '?' :: t).filter (· == '?')).length == 1) = _
    by_cases ht : t = []
    · subst ht
      have e : (hasSuffix (a ++ g!"?") g!"?" && ((a ++ g!"?").filter (· == '?')).length == 1) = true := by
        rw [hasSuffix_append, List.filter_append, hf]
        rfl
      refine ⟨?_, e.trans (by simp)⟩
      unfold cutQuery
      rw [if_pos e, List.dropLast_concat]
    · have e : (hasSuffix (a ++ '?' :: t) g!"?" && ((a ++ '?' :: t).filter (· == '?')).length == 1) = false := by
        rw [← Bool.not_eq_true]
        intro h
        simp only [Bool.and_eq_true, beq_iff_eq] at h
        obtain ⟨w, hw⟩ := (hasSuffix_iff _ _).1 h.1
        have h1 := h.2
        rw [List.filter_append, hf, List.filter_cons_of_pos (by simp)] at h1
        simp only [List.nil_append, List.length_cons] at h1
        have h2 : t.filter (· == '?') = [] := List.length_eq_zero_iff.1 (by omega)
        have h3 : t.getLast? = some '?' := by
          have := congrArg List.getLast? hw
          rw [getLast?_append_ne _ _ (by simp), getLast?_append_ne _ _ (by simp)] at this
          rw [show '?' :: t = ['?'] ++ t from rfl, getLast?_append_ne _ _ ht] at this
          exact this
        rw [List.filter_eq_nil_iff] at h2
        exact h2 _ (List.mem_of_getLast? h3) (by simp)
      refine ⟨?_, e.trans (by simp [ht])⟩
      unfold cutQuery
      rw [e, if_neg (by simp), cut_char _ _ _ ha]

theorem first_split (c : Char) (s : Str) : c ∉ s ∨ ∃ a b, s = a ++ c :: b ∧ c ∉ a := by
  induction s with
  | nil => exact Or.inl (by simp)
  | cons d s ih =>
    by_cases hd : d = c
    · exact Or.inr ⟨[], s, by rw [hd]; rfl, by simp⟩
    · rcases ih with ih | ⟨a, b, rfl, ih⟩
      · exact Or.inl (by simp [Ne.symm hd, ih])
      · exact Or.inr ⟨d :: a, b, rfl, by simp [Ne.symm hd, ih]⟩

theorem query_inv (s : Str) : ∃ a q, s = a ++ uriQuery q ∧ '?' ∉ a := by
  rcases first_split '?' s with h | ⟨a, b, rfl, h⟩
  · exact ⟨s, none, (List.append_nil s).symm, h⟩
  · exact ⟨a, some b, rfl, h⟩

/-! ### Hosts -/

theorem port_iff (s : Str) : validPort s = true ↔ UriPort s := by
  cases s with
  | nil => exact ⟨fun _ => Or.inl rfl, fun _ => rfl⟩
  | cons c s =>
    show (c == ':' && s.all isDigit) = true ↔ _
    rw [Bool.and_eq_true, beq_iff_eq, List.all_eq_true]
    constructor
    · rintro ⟨rfl, h⟩
      exact Or.inr ⟨s, rfl, fun c hc => (digit_mem c).1 (h c hc)⟩
    · rintro (h | ⟨n, h, hn⟩)
      · cases h
      · cases h
        exact ⟨rfl, fun c hc => (digit_mem c).2 (hn c hc)⟩

theorem port_bracket {p : Str} (h : UriPort p) : ']' ∉ p := by
  rcases h with rfl | ⟨n, rfl, hn⟩
  · simp
  · intro hm
    rcases List.mem_cons.1 hm with hm | hm
    · cases hm
    · exact absurd (hn _ hm) (by decide)

theorem zone_cut {i t : Str} (h : ∀ a b, i ≠ a ++ g!"%25" ++ b) : cut? g!"%25" (i ++ g!"%25" ++ t) = some (i, t) := by
  rcases hc : cut? g!"%25" (i ++ g!"%25" ++ t) with _ | ⟨a, b⟩
  · exact absurd rfl (cut?_none_iff.1 hc i t)
  · have h1 := cut?_some hc
    have h2 := cut?_first hc i t rfl
    rw [List.append_assoc, List.append_assoc] at h1
    obtain ⟨w, rfl⟩ : ∃ w, i = a ++ w := by
      rcases List.append_eq_append_iff.1 h1 with ⟨w, hw, _⟩ | ⟨w, hw, _⟩
      · rw [hw, List.length_append] at h2
        have : w = [] := List.length_eq_zero_iff.1 (by omega)
        subst this
        exact ⟨[], by rw [hw]; simp⟩
      · exact ⟨w, hw⟩
    rw [List.append_assoc] at h1
    have h3 := List.append_cancel_left h1
    match w, h3 with
    | [], h3 =>
      have : t = b := List.append_cancel_left h3
      rw [this]; simp
    | [x], h3 => simp at h3
    | [x, y], h3 => simp at h3
    | x :: y :: z :: w, h3 =>
      simp at h3
      obtain ⟨rfl, rfl, rfl, _⟩ := h3
      exact absurd (by simp) (h a w)

section
variable {D : UriKind → Str → Str → Prop} {E : Str → Str → Prop}

theorem zone_decode {z t z' : Str} (h : unescapePart .zone t = some z') : unescapePart .zone (g!"%25" ++ t) = some ('%' :: z') := by
  unfold unescapePart at h ⊢
  have := unescape_code (k := .zone) (x := '2') (y := '5') (a := 2) (b := 5) (Or.inl rfl) (Or.inl rfl) (Or.inl rfl) t
  show (unescapeBytes (partOf .zone) ('%' :: '2' :: '5' :: t)).map textOf = _
  rw [this]
  cases hu : unescapeBytes (partOf .zone) t with
  | none => rw [show Part.zone = partOf .zone from rfl, hu] at h; cases h
  | some w =>
    rw [show Part.zone = partOf .zone from rfl, hu] at h
    cases h
    have := textOf_encode '%' w
    exact congrArg some this

theorem host_read (hD : ∀ k p t, D k p t → ∃ p', unescapePart (partOf k) t = some p' ∧ E p p') (hE : ∀ a b c d, E a b → E c d → E (a ++ c) (b ++ d))
    (hE0 : ∀ c a b, E a b → E (c :: a) (c :: b)) {h t : Str} (hh : UriHost D h t) : ∃ h', parseHost t = some h' ∧ E h h' := by
  cases hh with
  | name h1 h2 h3 =>
    obtain ⟨p, hp, he⟩ := hD _ _ _ h3
    refine ⟨p, ?_, he⟩
    unfold parseHost
    rw [if_neg (by rw [hasPrefix_iff]; rintro ⟨r, rfl⟩; exact h1 _ rfl)]
    rcases cutLast?_cases ':' t with ⟨e, _⟩ | ⟨a, b, e, rfl, hb⟩
    · rw [e]; exact hp
    · rw [e]
      dsimp only
      rw [if_pos ((port_iff _).2 (Or.inr ⟨b, rfl, h2 _ _ rfl hb⟩))]
      exact hp
  | @address _ i q h1 h2 h3 =>
    obtain ⟨p, hp, he⟩ := hD _ _ _ h3
    refine ⟨p, ?_, he⟩
    unfold parseHost
    rw [if_pos ((hasPrefix_iff _ _).2 ⟨i ++ ']' :: q, by simp⟩), cutLast?_append _ _ _ (port_bracket h1)]
    dsimp only
    rw [if_neg (by rw [(port_iff _).2 h1]; simp), cut?_none_iff.2 h2]
    exact hp
  | @zone h z e i t q h1 h2 h3 h4 h5 =>
    obtain ⟨a, ha, ea⟩ := hD _ _ _ h3
    obtain ⟨b, hb, eb⟩ := hD _ _ _ h4
    obtain ⟨c, hc, ec⟩ := hD _ _ _ h5
    refine ⟨a ++ '%' :: b ++ c, ?_, hE _ _ _ _ (hE _ _ _ _ ea (hE0 _ _ _ eb)) ec⟩
    unfold parseHost
    rw [if_pos ((hasPrefix_iff _ _).2 ⟨i ++ g!"%25" ++ t ++ ']' :: q, by simp⟩), cutLast?_append _ _ _ (port_bracket h1)]
    dsimp only
    rw [if_neg (by rw [(port_iff _).2 h1]; simp), zone_cut h2]
    dsimp only
    rw [show unescapePart .host ('[' :: i) = some a from ha, zone_decode (z := z) hb, show unescapePart .host (']' :: q) = some c from hc]
    rfl

theorem userinfo_iff (s : Str) : validUserinfo s = true ↔ ∀ c ∈ s, c ∈ uriUserChars := by
  have e : uriUserChars = g!"abcdefghijklmnopqrstuvwxyzABCDEFGHIJKLMNOPQRSTUVWXYZ" ++ (g!"0123456789" ++ g!"-._:~!$&'()*+,;=%@") := rfl
  unfold validUserinfo
  rw [List.all_eq_true, e]
  simp only [Bool.or_eq_true, List.mem_append, ← letter_iff, ← digit_mem, List.contains_iff_mem, or_assoc]

/-- What is read for user information. -/
def UserRel (E : Str → Str → Prop) : Option (Str × Option Str) → Option User → Prop
  | none, none => True
  | some (n, none), some ⟨m, none⟩ => E n m
  | some (n, some p), some ⟨m, some q⟩ => E n m ∧ E p q
  | _, _ => False

theorem authority_read (hD : ∀ k p t, D k p t → ∃ p', unescapePart (partOf k) t = some p' ∧ E p p')
    (hE : ∀ a b c d, E a b → E c d → E (a ++ c) (b ++ d)) (hE0 : ∀ c a b, E a b → E (c :: a) (c :: b)) {u : Option (Str × Option Str)} {h t : Str}
    (hh : UriAuthority D u h t) : ∃ u' h', parseAuthorityFull t = some (u', h') ∧ UserRel E u u' ∧ E h h' := by
  cases hh with
  | host h1 h2 =>
    obtain ⟨h', e1, e2⟩ := host_read hD hE hE0 h2
    refine ⟨none, h', ?_, trivial, e2⟩
    unfold parseAuthorityFull
    rw [cutLast?_none _ _ h1, e1]
    rfl
  | @user n p h x t h1 h2 h3 =>
    obtain ⟨h', e1, e2⟩ := host_read hD hE hE0 h3
    cases h1 with
    | name k1 k2 k3 =>
      obtain ⟨m, m1, m2⟩ := hD _ _ _ k3
      refine ⟨some ⟨m, none⟩, h', ?_, m2, e2⟩
      unfold parseAuthorityFull
      rw [cutLast?_append _ _ _ h2]
      dsimp only
      rw [e1]
      dsimp only [Option.bind_eq_bind, Option.bind_some]
      rw [if_neg (by rw [(userinfo_iff _).2 k1]; simp), cut?_char_none _ _ k2, show unescapePart .user _ = _ from m1]
      rfl
    | @password p y w k1 k2 k3 k4 k5 =>
      obtain ⟨m, m1, m2⟩ := hD _ _ _ k4
      obtain ⟨o, o1, o2⟩ := hD _ _ _ k5
      refine ⟨some ⟨m, some o⟩, h', ?_, ⟨m2, o2⟩, e2⟩
      unfold parseAuthorityFull
      rw [cutLast?_append _ _ _ h2]
      dsimp only
      rw [e1]
      dsimp only [Option.bind_eq_bind, Option.bind_some]
      have hv : validUserinfo (y ++ ':' :: w) = true := by
        rw [userinfo_iff]
        intro c hc
        rcases List.mem_append.1 hc with hc | hc
        · exact k1 c hc
        · rcases List.mem_cons.1 hc with rfl | hc
          · decide
          · exact k3 c hc
      rw [if_neg (by rw [hv]; simp), cut?_char _ _ _ k2]
      dsimp only
      rw [show unescapePart .user y = _ from m1, show unescapePart .user w = _ from o1]
      rfl

/-- What is read for a URI. -/
def ReadAs (E : Str → Str → Prop) (parts : UriParts) (u : Request) : Prop :=
  u.scheme = parts.scheme ∧ u.opaquePart = parts.rest ∧ UserRel E parts.user u.user ∧ E parts.host u.host ∧ E parts.path u.path ∧
    u.omitHost = parts.hostless ∧ u.forceQuery = decide (parts.query = some []) ∧ u.rawQuery = parts.query.getD []

theorem noCTL_iff (s : Str) : hasCTL s = false ↔ UriChars s := by
  constructor
  · intro h c hc
    unfold hasCTL at h
    rw [List.any_eq_false] at h
    have := h c hc
    simp at this
    omega
  · exact hasCTL_false

theorem uri_read (hD : ∀ k p t, D k p t → ∃ p', unescapePart (partOf k) t = some p' ∧ E p p')
    (hE : ∀ a b c d, E a b → E c d → E (a ++ c) (b ++ d)) (hE0 : ∀ c a b, E a b → E (c :: a) (c :: b)) (hE1 : E [] []) {parts : UriParts} {s : Str}
    (hc : UriChars s) (h : RequestUri D parts s) : ∃ u, parseRequest s = some u ∧ ReadAs E parts u ∧ (u.rawPath = [] ∨ (D .path parts.path u.rawPath ∧ ∃ r, u.rawPath = '/' :: r)) := by
  have hset : ∀ (v : Request) (p t : Str), (t = [] ∨ ∃ r, t = '/' :: r) → D .path p t → ∃ p' r, setPath v t = some { v with path := p', rawPath := r } ∧ E p p' ∧
      (r = [] ∨ (D .path p r ∧ ∃ w, r = '/' :: w)) := by
    intro v p t ht hd
    obtain ⟨p', h1, h2⟩ := hD _ _ _ hd
    unfold setPath
    rw [show unescapePart .path t = some p' from h1]
    refine ⟨p', _, rfl, h2, ?_⟩
    split
    · exact Or.inl rfl
    · rcases ht with ht | ht
      · exact Or.inl ht
      · exact Or.inr ⟨hd, ht⟩
  have hstar : ∀ (x y : Str), UriScheme x → x ++ ':' :: y ≠ g!"*" := by
    intro x y _ hx
    have : ':' ∈ g!"*" := by rw [← hx]; simp
    simp at this
  cases h with
  | star => exact ⟨_, rfl, ⟨rfl, rfl, trivial, hE1, hE0 _ _ _ hE1, rfl, rfl, rfl⟩, Or.inl rfl⟩
  | @path p t q h1 h2 =>
    obtain ⟨q1, q2⟩ := query_read q h1
    unfold parseRequest
    rw [if_neg (by rw [(noCTL_iff _).2 hc]; simp), if_neg (by simp), if_neg (by simp)]
    have e : ∀ raw, getScheme raw [] ('/' :: t ++ uriQuery q) = some ([], raw) := by
      intro raw
      simp [getScheme, isLetter, isDigit]
    rw [e]
    dsimp only
    rw [q1, q2]
    dsimp only
    rw [if_neg (by rw [(hasPrefix_iff ('/' :: t) g!"/").2 ⟨t, rfl⟩]; simp), if_neg (by simp)]
    obtain ⟨p', r, h3, h4, h5⟩ := hset { scheme := Str.toLower [], forceQuery := decide (q = some []), rawQuery := q.getD [], omitHost := decide (([] : Str) ≠ []) } p _ (Or.inr ⟨_, rfl⟩) h2
    exact ⟨_, h3, ⟨rfl, rfl, trivial, hE1, h4, rfl, rfl, rfl⟩, h5⟩
  | @bare x r q h1 h2 h3 =>
    obtain ⟨q1, q2⟩ := query_read q h2
    unfold parseRequest
    rw [if_neg (by rw [(noCTL_iff _).2 hc]; simp), if_neg (by simp), if_neg (hstar _ _ h1), scheme_read h1]
    dsimp only
    rw [q1, q2]
    dsimp only
    have hp : hasPrefix r g!"/" = false := by
      rw [← Bool.not_eq_true, hasPrefix_iff]
      rintro ⟨w, rfl⟩
      exact h3 w rfl
    rw [if_pos (by rw [hp]; rfl), if_pos (scheme_ne h1)]
    exact ⟨_, rfl, ⟨rfl, rfl, trivial, hE1, hE1, rfl, rfl, rfl⟩, Or.inl rfl⟩
  | @rooted x p t q h1 h2 h3 h4 =>
    obtain ⟨q1, q2⟩ := query_read q h2
    unfold parseRequest
    rw [if_neg (by rw [(noCTL_iff _).2 hc]; simp), if_neg (by simp), if_neg (hstar _ _ h1), scheme_read h1]
    dsimp only
    rw [q1, q2]
    dsimp only
    have hp : hasPrefix ('/' :: t) g!"//" = false := by
      rw [← Bool.not_eq_true, hasPrefix_iff]
      rintro ⟨w, hw⟩
      exact h3 w (List.cons.inj hw).2
    rw [if_neg (by rw [(hasPrefix_iff ('/' :: t) g!"/").2 ⟨t, rfl⟩]; simp), if_neg (by rw [hp]; simp)]
    obtain ⟨p', r, h5, h6, h7⟩ := hset { scheme := Str.toLower x, forceQuery := decide (q = some []), rawQuery := q.getD [], omitHost := decide (x ≠ []) } p _ (Or.inr ⟨_, rfl⟩) h4
    exact ⟨_, h5, ⟨rfl, rfl, trivial, hE1, h6, by simp [scheme_ne h1], rfl, rfl⟩, h7⟩
  | @full x a h p t u q h1 h2 h3 h4 h5 h6 h7 =>
    have hnq : '?' ∉ g!"//" ++ a ++ t := by simp [h3, h6]
    obtain ⟨q1, q2⟩ := query_read q hnq
    unfold parseRequest
    rw [if_neg (by rw [(noCTL_iff _).2 hc]; simp), if_neg (by simp), if_neg (hstar _ _ h1), scheme_read h1]
    dsimp only
    rw [q1, q2]
    dsimp only
    rw [if_neg (by rw [(hasPrefix_iff (g!"//" ++ a ++ t) g!"/").2 ⟨g!"/" ++ a ++ t, by simp⟩]; simp)]
    rw [if_pos (by rw [(hasPrefix_iff (g!"//" ++ a ++ t) g!"//").2 ⟨a ++ t, by simp⟩]; simp [scheme_ne h1])]
    have e2 : (g!"//" ++ a ++ t).drop 2 = a ++ t := by simp
    rw [e2]
    have e3 : (cut (a ++ t) g!"/").1 = a := by
      rcases h5 with rfl | ⟨r, rfl⟩
      · rw [List.append_nil, cut_char_none _ _ h2]
      · rw [cut_char _ _ _ h2]
    obtain ⟨u', h', k1, k2, k3⟩ := authority_read hD hE hE0 h4
    rw [e3, k1]
    dsimp only
    rw [List.drop_left]
    obtain ⟨p', r, m1, m2, m3⟩ := hset { scheme := Str.toLower x, user := u', host := h', forceQuery := decide (q = some []), rawQuery := q.getD [] } p _ h5 h7
    exact ⟨_, m1, ⟨rfl, rfl, k2, k3, m2, rfl, rfl, rfl⟩, m3⟩
end

/-! ### What is accepted -/

theorem host_inv {t h : Str} (hh : parseHost t = some h) : ∃ x, UriHost (fun k _ t => UriOk k t) x t := by
  have ok : ∀ {k : UriKind} {t p : Str}, unescapePart (partOf k) t = some p → UriOk k t := fun h => (unescapePart_ok _ _).1 ⟨_, h⟩
  unfold parseHost at hh
  split at hh
  · rename_i hb
    obtain ⟨r, rfl⟩ := (hasPrefix_iff _ _).1 hb
    rcases cutLast?_cases ']' (g!"[" ++ r) with ⟨e, _⟩ | ⟨a, b, e, hs, hb'⟩
    · rw [e] at hh; cases hh
    · rw [e] at hh
      dsimp only at hh
      obtain ⟨i, rfl⟩ : ∃ i, a = '[' :: i := by
        cases a with
        | nil => simp at hs
        | cons c a => simp at hs; exact ⟨a, by rw [hs.1]⟩
      rw [hs] at hh ⊢
      split at hh
      · cases hh
      · rename_i hp
        have hp := (port_iff b).1 (by simpa using hp)
        split at hh
        · rename_i h1 z hc
          have hz := cut?_some hc
          have hf := cut?_first hc
          cases e1 : unescapePart .host h1 with
          | none => rw [e1] at hh; cases hh
          | some x =>
            rw [e1] at hh
            cases e2 : unescapePart .zone (g!"%25" ++ z) with
            | none => rw [e2] at hh; cases hh
            | some y =>
              rw [e2] at hh
              cases e3 : unescapePart .host (']' :: b) with
              | none => rw [e3] at hh; cases hh
              | some w =>
                obtain ⟨j, rfl⟩ : ∃ j, h1 = '[' :: j := by
                  cases h1 with
                  | nil => simp at hz
                  | cons c a => simp at hz; exact ⟨a, by rw [hz.1]⟩
                rw [hz]
                refine ⟨_, .zone (h := []) (z := []) (e := []) hp ?_ (ok (k := .host) e1) ?_ (ok (k := .host) e3)⟩
                · intro a c he
                  rw [he] at hz
                  have := hf a (c ++ g!"%25" ++ z) (by rw [hz]; simp)
                  rw [he] at this
                  simp at this
                  omega
                · have := ok (k := .zone) e2
                  cases this with
                  | plain hc => exact absurd hc (by show ¬ (128 ≤ _ ∨ _); decide)
                  | byte _ _ _ h => exact h
        · rename_i hc
          exact ⟨[], .address hp (cut?_none_iff.1 hc) (ok (k := .host) hh)⟩
  · rename_i hb
    have hb : ∀ r, t ≠ '[' :: r := fun r e => hb ((hasPrefix_iff _ _).2 ⟨r, e⟩)
    rcases cutLast?_cases ':' t with ⟨e, hn⟩ | ⟨a, b, e, rfl, hn⟩
    · rw [e] at hh
      exact ⟨[], .name hb (fun a b e => absurd (by rw [e]; simp) hn) (ok (k := .host) hh)⟩
    · rw [e] at hh
      dsimp only at hh
      split at hh
      · rename_i hp
        refine ⟨[], .name hb (fun c d e hd => ?_) (ok (k := .host) hh)⟩
        have h1 := cutLast?_append ':' a b hn
        rw [e, cutLast?_append _ _ _ hd] at h1
        cases h1
        rcases (port_iff _).1 hp with h | ⟨n, h, h'⟩
        · cases h
        · cases h; exact h'
      · cases hh

theorem authority_inv {t h : Str} {u : Option User} (hh : parseAuthorityFull t = some (u, h)) :
    ∃ x y, UriAuthority (fun k _ t => UriOk k t) x y t := by
  have ok : ∀ {t p : Str}, unescapePart .user t = some p → UriOk .user t := fun h => (unescapePart_ok .user _).1 ⟨_, h⟩
  unfold parseAuthorityFull at hh
  rcases cutLast?_cases '@' t with ⟨e, hn⟩ | ⟨a, b, e, rfl, hn⟩
  · rw [e] at hh
    dsimp only at hh
    cases hp : parseHost t with
    | none => rw [hp] at hh; cases hh
    | some v =>
      obtain ⟨x, hx⟩ := host_inv hp
      exact ⟨none, x, .host hn hx⟩
  · rw [e] at hh
    dsimp only at hh
    cases hp : parseHost b with
    | none => rw [hp] at hh; cases hh
    | some v =>
      obtain ⟨x, hx⟩ := host_inv hp
      rw [hp] at hh
      dsimp only [Option.bind_eq_bind, Option.bind_some] at hh
      split at hh
      · cases hh
      · rename_i hu
        have hu := (userinfo_iff a).1 (by simpa using hu)
        rcases first_split ':' a with hc | ⟨n, p, rfl, hc⟩
        · rw [cut?_char_none _ _ hc] at hh
          dsimp only at hh
          cases e1 : unescapePart .user a with
          | none => rw [e1] at hh; cases hh
          | some w => exact ⟨some ([], none), x, .user (.name hu hc (ok e1)) hn hx⟩
        · rw [cut?_char _ _ _ hc] at hh
          dsimp only at hh
          cases e1 : unescapePart .user n with
          | none => rw [e1] at hh; cases hh
          | some w =>
            rw [e1] at hh
            cases e2 : unescapePart .user p with
            | none => rw [e2] at hh; cases hh
            | some v =>
              exact ⟨some ([], some []), x, .user (.password (fun c hx => hu c (by simp [hx])) hc (fun c hx => hu c (by simp [hx])) (ok e1) (ok e2)) hn hx⟩

theorem uri_inv {s : Str} {u : Request} (h : parseRequest s = some u) : IsRequestUri s := by
  have hset : ∀ {v w : Request} {t : Str}, setPath v t = some w → UriOk .path t := by
    intro v w t h
    unfold setPath at h
    cases e : unescapePart .path t with
    | none => rw [e] at h; cases h
    | some p => exact (unescapePart_ok .path t).1 ⟨p, e⟩
  unfold parseRequest at h
  split at h
  · cases h
  · rename_i hctl
    refine ⟨(noCTL_iff s).1 (by simpa using hctl), ?_⟩
    split at h
    · cases h
    · split at h
      · rename_i e
        subst e
        exact ⟨_, .star⟩
      · cases hs : getScheme s [] s with
        | none => rw [hs] at h; cases h
        | some xr =>
          obtain ⟨x, r⟩ := xr
          rw [hs] at h
          dsimp only at h
          obtain ⟨a, q, rfl, ha⟩ := query_inv r
          obtain ⟨q1, q2⟩ := query_read q ha
          rw [q1, q2] at h
          dsimp only at h
          rcases scheme_inv hs with ⟨rfl, rfl⟩ | ⟨hx, rfl⟩
          · split at h
            · rw [if_neg (by simp)] at h; cases h
            · rename_i hp
              rw [if_neg (by simp)] at h
              obtain ⟨t, rfl⟩ := (hasPrefix_iff a g!"/").1 (by simpa using hp)
              exact ⟨{ path := [], query := q }, .path (p := []) (t := t) ha (hset h)⟩
          · split at h
            · rename_i hp
              exact ⟨_, .bare hx ha fun t e => by
                rw [(hasPrefix_iff a g!"/").2 ⟨t, e⟩] at hp; simp at hp⟩
            · rename_i hp
              obtain ⟨t, rfl⟩ := (hasPrefix_iff a g!"/").1 (by simpa using hp)
              split at h
              · rename_i hp2
                simp only [Bool.and_eq_true] at hp2
                obtain ⟨b, hb⟩ := (hasPrefix_iff _ _).1 hp2.2
                rw [hb] at h ha ⊢
                have e2 : (g!"//" ++ b).drop 2 = b := by simp
                rw [e2] at h
                have key : ∀ a t, '/' ∉ a → (t = [] ∨ ∃ r, t = '/' :: r) → b = a ++ t → ∃ parts, RequestUri (fun k _ t => UriOk k t) parts
                    (x ++ ':' :: (g!"//" ++ b ++ uriQuery q)) := by
                  rintro a t h1 h2 rfl
                  have e3 : (cut (a ++ t) g!"/").1 = a := by
                    rcases h2 with rfl | ⟨r, rfl⟩
                    · rw [List.append_nil, cut_char_none _ _ h1]
                    · rw [cut_char _ _ _ h1]
                  rw [e3, List.drop_left] at h
                  cases e4 : parseAuthorityFull a with
                  | none => rw [e4] at h; cases h
                  | some uh =>
                    obtain ⟨v, w⟩ := uh
                    rw [e4] at h
                    obtain ⟨m, n, hm⟩ := authority_inv e4
                    have := RequestUri.full (D := fun k _ t => UriOk k t) (q := q) (p := []) hx h1 (fun hc => ha (by simp [hc])) hm h2
                      (fun hc => ha (by simp [hc])) (hset h)
                    exact ⟨_, by simpa using this⟩
                rcases first_split '/' b with h1 | ⟨a, r, rfl, h1⟩
                · exact key b [] h1 (Or.inl rfl) (by simp)
                · exact key a ('/' :: r) h1 (Or.inr ⟨r, rfl⟩) rfl
              · rename_i hp2
                refine ⟨_, .rooted (p := []) hx ha ?_ (hset h)⟩
                rintro w rfl
                exact hp2 (by rw [(hasPrefix_iff (g!"/" ++ '/' :: w) g!"//").2 ⟨w, rfl⟩]; simp [scheme_ne hx])

end Osv.Url
